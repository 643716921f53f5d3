import Verif.Drain
/-! # C13, C29: draining the queues -/

set_option linter.unusedSimpArgs false

namespace Xtra

/-- Unicast / broadcast message of a yield. -/
def AMsg.uni? : AMsg → Option Msg
  | .one m => some m
  | _ => none
def AMsg.bc? : AMsg → Option Msg
  | .all m => some m
  | _ => none

theorem count_one (ams : List AMsg) (m : Msg) : ams.count (.one m) = (ams.filterMap AMsg.uni?).count m := by
  induction ams with
  | nil => rfl
  | cons a l ih => cases a <;> simp [List.count_cons, List.filterMap_cons, AMsg.uni?, ih]
theorem count_all (ams : List AMsg) (m : Msg) : ams.count (.all m) = (ams.filterMap AMsg.bc?).count m := by
  induction ams with
  | nil => rfl
  | cons a l ih => cases a <;> simp [List.count_cons, List.filterMap_cons, AMsg.bc?, ih]
theorem len_split (ams : List AMsg) : ams.length =
    (ams.filterMap AMsg.uni?).length + (ams.filterMap AMsg.bc?).length + ams.count .shutdown := by
  induction ams with
  | nil => rfl
  | cons a l ih => cases a <;> simp [List.count_cons, List.filterMap_cons, AMsg.bc?, AMsg.uni?, ih] <;> omega

/-- What a sequence of receives does. -/
structure Drained (cap : Option Nat) (i b : Nat) (w : World) (ams : List AMsg) (w' : World) : Prop where
  quiet : Quiet cap w'
  obj : w'.objs[i]? = some (.mailbox b)
  sc : w'.sc = w.sc
  uni : (ams.filterMap AMsg.uni? ++ w'.pU).Perm w.pU
  bc : (ams.filterMap AMsg.bc? ++ w'.pB b).Perm (w.pB b)
  shut : .shutdown ∈ ams → w'.uq = [] ∧ w'.items b = [] ∧ w'.sc = 0
  stay : w.uq = [] → w.items b = [] → ams = List.replicate ams.length .shutdown ∧ w'.uq = [] ∧ w'.items b = []
  one : ∀ x ∈ parkedMsgs w'.ws w'.wOne, x ∈ parkedMsgs w.ws w.wOne
  all : ∀ x ∈ parkedMsgs w'.ws w'.wAll, x ∈ parkedMsgs w.ws w.wAll

theorem receives_drained {cap : Option Nat} {i b : Nat} {w w' : World} {ams : List AMsg} (hr : Receives i b w ams w') :
    Quiet cap w → w.objs[i]? = some (.mailbox b) → Drained cap i b w ams w' := by
  induction hr with
  | nil => intro hq hi; exact ⟨hq, hi, rfl, by simp, by simp, by simp, fun h1 h2 => ⟨rfl, h1, h2⟩, fun x h => h, fun x h => h⟩
  | recv h1 h2 hy hr ih =>
    rename_i w w1 w2 w' wk am ams
    intro hq hi
    have hs := receive_step hq hi h1 h2 hy
    have d := ih ((hq.does h1).does h2) (by rw [hs.obj]; exact hi)
    refine ⟨d.quiet, d.obj, d.sc.trans hs.sc, ?_, ?_, ?_, ?_, fun x h => hs.one x (d.one x h), fun x h => hs.all x (d.all x h)⟩
    · rcases hs.out with ⟨m, rfl, -, -, h3, -⟩ | ⟨m, rfl, -, -, -, h3, -⟩ | ⟨rfl, -, -, -, h3, -⟩
      · exact (List.Perm.cons m d.uni).trans h3
      · have := d.uni; rw [h3] at this; exact this
      · have := d.uni; rw [h3] at this; exact this
    · rcases hs.out with ⟨m, rfl, -, -, -, h3, -⟩ | ⟨m, rfl, -, -, h3, -⟩ | ⟨rfl, -, -, -, -, h3, -⟩
      · have := d.bc; rw [h3] at this; exact this
      · exact (List.Perm.cons m d.bc).trans h3
      · have := d.bc; rw [h3] at this; exact this
    · intro hm
      rcases List.mem_cons.mp hm with rfl | hm
      · rcases hs.out with ⟨m, h, -⟩ | ⟨m, h, -⟩ | ⟨-, -, -, h0, -, -, h3, h4⟩
        · simp at h
        · simp at h
        · obtain ⟨-, h5, h6⟩ := d.stay h3 h4
          exact ⟨h5, h6, by rw [d.sc, hs.sc]; exact h0⟩
      · exact d.shut hm
    · intro e1 e2
      rcases hs.out with ⟨m, -, -, -, -, -, h⟩ | ⟨m, -, -, -, -, -, h⟩ | ⟨rfl, -, -, -, -, -, h3, h4⟩
      · rw [e1] at h; simp at h
      · rw [e2] at h; simp at h
      · obtain ⟨h5, h6⟩ := d.stay h3 h4
        exact ⟨by rw [List.length_cons, List.replicate_succ, ← h5], h6⟩
  | handle hc hd hr ih =>
    rename_i w w1 w' c ams
    intro hq hi
    have k := handles_keeps hq hc hi hd
    have d := ih (hq.does hd) (by rw [k.obj]; exact hi)
    refine ⟨d.quiet, d.obj, d.sc.trans k.sc, ?_, ?_, d.shut, ?_, ?_, ?_⟩
    · have := d.uni; rwa [k.pU] at this
    · have := d.bc; rwa [k.pB] at this
    · have := d.stay; rwa [k.uq, k.items] at this
    · have := d.one; rwa [k.ws, k.wOne] at this
    · have := d.all; rwa [k.ws, k.wAll] at this

/-! ### uniqueness and counting -/

theorem parked_sum (i : Nat) (q : List Nat) : ∀ (ws : List WsCell), q.Nodup →
    sumBy (mid1 i) (parkedMsgs ws q) ≤ sumBy (wsW i) ws := by
  induction q with
  | nil => intro ws _; simp [parkedMsgs]
  | cons h q ih =>
    intro ws hn
    simp at hn
    cases hx : ws[h]? with
    | none =>
      have := ih ws hn.2
      simp [parkedMsgs, List.filterMap_cons, hx] at this ⊢; exact this
    | some x =>
      have h1 := ih (ws.set h .gone) hn.2
      rw [parkedMsgs_set hn.1] at h1
      have h2 := sumBy_set (wsW i) .gone hx
      have h3 : wsW i .gone = 0 := rfl
      cases x with
      | active wk m =>
        simp [parkedMsgs, List.filterMap_cons, hx, WsCell.msg?] at h1 ⊢
        simp [wsW] at h2; omega
      | _ => simp [parkedMsgs, List.filterMap_cons, hx, WsCell.msg?] at h1 ⊢; omega

theorem parked_len (q : List Nat) : ∀ (ws : List WsCell), q.Nodup →
    (parkedMsgs ws q).length ≤ ws.countP WsCell.isActive := by
  induction q with
  | nil => intro ws _; simp [parkedMsgs]
  | cons h q ih =>
    intro ws hn
    simp at hn
    cases hx : ws[h]? with
    | none =>
      have := ih ws hn.2
      simp [parkedMsgs, List.filterMap_cons, hx] at this ⊢; exact this
    | some x =>
      have h1 := ih (ws.set h .gone) hn.2
      rw [parkedMsgs_set hn.1] at h1
      have hf : ∀ x : WsCell, (if x.isActive then 1 else 0) = if x.isActive then 1 else 0 := fun _ => rfl
      have h2 := sumBy_set (fun x : WsCell => if x.isActive then 1 else 0) .gone hx
      rw [sumBy_countP hf, sumBy_countP hf] at h2
      cases x with
      | active wk m =>
        simp [parkedMsgs, List.filterMap_cons, hx, WsCell.msg?] at h1 ⊢
        simp [WsCell.isActive] at h2; omega
      | _ =>
        simp [parkedMsgs, List.filterMap_cons, hx, WsCell.msg?] at h1 ⊢
        simp [WsCell.isActive] at h2; omega

theorem count_le_id (l : List Msg) (m : Msg) : l.count m ≤ sumBy (mid1 m.id) l := by
  induction l with
  | nil => simp
  | cons a l ih =>
    simp only [List.count_cons, sumBy_cons]
    by_cases h : a = m
    · subst h; simp [mid1]; omega
    · have : (a == m) = false := by simpa using h
      simp [this]; omega

theorem Quiet.nodups {cap : Option Nat} {w : World} (hq : Quiet cap w) : w.wOne.Nodup ∧ w.wAll.Nodup :=
  ⟨(List.nodup_append.mp hq.regWs.nodup).1, (List.nodup_append.mp hq.regWs.nodup).2.1⟩

theorem Quiet.pU_count {cap : Option Nat} {w : World} (hq : Quiet cap w) {m : Msg} (hm : m ∈ w.pU) : w.pU.count m = 1 := by
  obtain ⟨th, hr, -⟩ := id hq
  have h1 := held_reachable hr m.id
  have h2 := created_le m.id w
  simp only [World.held] at h1
  have h3 := parked_sum m.id w.wOne w.ws hq.nodups.1
  have h4 := count_le_id w.pU m
  have h5 : sumBy (mid1 m.id) w.pU = sumBy (mid1 m.id) w.uq + sumBy (mid1 m.id) (parkedMsgs w.ws w.wOne) := by
    simp [World.pU]
  have h6 := List.count_pos_iff.mpr hm
  omega

theorem Quiet.backlog {cap : Option Nat} {w : World} (hq : Quiet cap w) (b : Nat) :
    w.pU.length + (w.pB b).length ≤ w.backlog b := by
  have h := parked_len (w.wOne ++ w.wAll) w.ws hq.regWs.nodup
  simp only [parkedMsgs, List.filterMap_append, List.length_append] at h
  simp only [World.pU, World.pB, parkedMsgs, List.length_append, World.backlog]
  omega

theorem Quiet.noParked {cap : Option Nat} {w : World} (hq : Quiet cap w) (hc : cap ≠ some 0) (hu : w.uq = []) :
    parkedMsgs w.ws w.wOne = [] := by
  rw [List.eq_nil_iff_forall_not_mem]
  intro m hm
  obtain ⟨h, wk, h1, h2⟩ := mem_parkedMsgs.mp hm
  have h3 := hq.uInv.parked h1 h2
  obtain ⟨th, hr, -⟩ := id hq
  have h4 : w.cap = cap := cap_reachable hr
  unfold World.uniFull at h3
  rw [h4, hu] at h3
  cases cap with
  | none => simp at h3
  | some c => simp at h3; subst h3; exact hc rfl

theorem Quiet.parked_pU {cap : Option Nat} {w : World} (hq : Quiet cap w) {f : Nat} {md : Mode} {m : Msg}
    (hp : w.parkedSend f md m) (hmd : md ≠ .bcast) : m ∈ w.pU := by
  obtain ⟨h, wk, h1, h2⟩ := hp
  obtain ⟨th, hr, -⟩ := id hq
  have := (parked_reg hr h1 h2).1 hmd
  exact List.mem_append.mpr (.inr (mem_parkedMsgs.mpr ⟨h, wk, this, h2⟩))

theorem Quiet.items_count {cap : Option Nat} {w : World} (hq : Quiet cap w) {b : Nat} {m : Msg} (hm : m ∈ w.pB b) :
    (w.pB b).count m = 1 := by
  obtain ⟨th, hr, -⟩ := id hq
  have h1 := held_reachable hr m.id
  have h2 := created_le m.id w
  simp only [World.held] at h1
  have h3 := parked_sum m.id w.wAll w.ws hq.nodups.2
  have h4 := count_le_id (w.pB b) m
  have h5 : sumBy (mid1 m.id) (w.pB b) = sumBy (mid1 m.id) (w.items b) + sumBy (mid1 m.id) (parkedMsgs w.ws w.wAll) := by
    simp [World.pB]
  have h6 := List.count_pos_iff.mpr hm
  have h7 := (bc_reachable hr b m.id).le
  have h8 : sumBy (eBs b m.id) w.log ≤ sumBy (eAll m.id) w.log := by
    apply sumBy_le; intro e; cases e <;> simp [eBs, eAll, mid1]
    split <;> simp_all
  simp only at h7 h8 h1
  omega

/-! ### C13 -/

theorem replicate_of_all {ams : List AMsg} (h : ams = List.replicate ams.length .shutdown) :
    ∃ ys k, ams = ys ++ List.replicate k .shutdown ∧ .shutdown ∉ ys := ⟨[], ams.length, by simpa using h, by simp⟩

theorem receives_shape {cap : Option Nat} {i b : Nat} {w w' : World} {ams : List AMsg} (hr : Receives i b w ams w') :
    Quiet cap w → w.objs[i]? = some (.mailbox b) →
    ∃ ys k, ams = ys ++ List.replicate k .shutdown ∧ .shutdown ∉ ys := by
  induction hr with
  | nil => intro _ _; exact ⟨[], 0, rfl, by simp⟩
  | recv h1 h2 hy hr ih =>
    rename_i w w1 w2 w' wk am ams
    intro hq hi
    have hs := receive_step hq hi h1 h2 hy
    have hq2 := (hq.does h1).does h2
    have hi2 : w2.objs[i]? = some (.mailbox b) := by rw [hs.obj]; exact hi
    rcases hs.out with ⟨m, rfl, -⟩ | ⟨m, rfl, -⟩ | ⟨rfl, -, -, -, -, -, h3, h4⟩
    · obtain ⟨ys, k, h3, h4⟩ := ih hq2 hi2
      exact ⟨.one m :: ys, k, by simp [h3], by simp [h4]⟩
    · obtain ⟨ys, k, h3, h4⟩ := ih hq2 hi2
      exact ⟨.all m :: ys, k, by simp [h3], by simp [h4]⟩
    · have := ((receives_drained hr hq2 hi2).stay h3 h4).1
      exact ⟨[], ams.length + 1, by rw [List.nil_append, List.replicate_succ, ← this], by simp⟩
  | handle hc hd hr ih =>
    intro hq hi
    have k := handles_keeps hq hc hi hd
    exact ih (hq.does hd) (by rw [k.obj]; exact hi)

/-- **C13.** An actor receives successively (handling what it receives in between, or not) and at some point a receive
yields the shutdown notice. Capacity at least 1, or unbounded. Then every unicast message queued at the start, every
broadcast queued for this mailbox at the start, and the message of every send parked at the start was yielded exactly
once; and what was yielded is: messages first, and nothing but shutdown notices from the first shutdown notice on. -/
theorem C13_drained_before_shutdown {cap : Option Nat} {i b : Nat} {w w' : World} {ams : List AMsg} (hq : Quiet cap w)
    (hi : w.objs[i]? = some (.mailbox b)) (hc : cap ≠ some 0) (hr : Receives i b w ams w') (hs : .shutdown ∈ ams) :
    (∀ m ∈ w.uq, ams.count (.one m) = 1) ∧ (∀ m ∈ w.items b, ams.count (.all m) = 1) ∧
    (∀ f md m, w.parkedSend f md m → md ≠ .bcast → ams.count (.one m) = 1) ∧
    (∃ ys k, ams = ys ++ List.replicate k .shutdown ∧ .shutdown ∉ ys) := by
  have d := receives_drained hr hq hi
  obtain ⟨h1, h2, h3⟩ := d.shut hs
  have hU : w'.pU = [] := by simp [World.pU, h1, d.quiet.noParked hc h1]
  have hone : ∀ m ∈ w.pU, ams.count (.one m) = 1 := by
    intro m hm
    have h4 := hq.pU_count hm
    have h5 := d.uni.count_eq m
    rw [hU] at h5
    simp at h5
    rw [count_one]; omega
  refine ⟨fun m hm => hone m (List.mem_append.mpr (.inl hm)), fun m hm => ?_, fun f md m hp hmd => hone m (hq.parked_pU hp hmd),
    receives_shape hr hq hi⟩
  have hm' : m ∈ w.pB b := List.mem_append.mpr (.inl hm)
  have h4 := hq.items_count hm'
  have h5 := d.bc.count_eq m
  simp only [List.count_append, World.pB] at h5 h4
  have h6 : m ∉ parkedMsgs w.ws w.wAll := by
    intro hx
    have h7 := List.count_pos_iff.mpr hm
    have h8 := List.count_pos_iff.mpr hx
    omega
  have h7 : (parkedMsgs w'.ws w'.wAll).count m = 0 := by
    rw [List.count_eq_zero]; intro hx; exact h6 (d.all m hx)
  rw [List.count_eq_zero.mpr h6, h2, h7] at h5
  rw [List.count_eq_zero.mpr h6] at h4
  simp at h5 h4
  rw [count_all]; omega

/-- **C13.** If no send is parked at the start, the messages are yielded in non-increasing order of priority. -/
theorem C13_priority_order {cap : Option Nat} {i b : Nat} {w w' : World} {ams : List AMsg} (hq : Quiet cap w)
    (hi : w.objs[i]? = some (.mailbox b)) (hr : Receives i b w ams w') (hp : ∀ f md m, ¬ w.parkedSend f md m) :
    (ams.filter (· ≠ .shutdown)).Pairwise (fun x y => y.prio ≤ x.prio) := by
  have hnone : parkedMsgs w.ws w.wOne = [] ∧ parkedMsgs w.ws w.wAll = [] := by
    have key : ∀ (h : Nat) (wk : Option Nat) (m : Msg), w.ws[h]? = some (.active wk m) → False := by
      intro h wk m hx
      have h1 := (hq.own h).1
      have h2 : 0 < sumBy (oWs h) w.objs := by rw [h1]; simp [wsL, wsActive, hx]
      obtain ⟨o, ho, h3⟩ := (sumBy_pos _).mp h2
      obtain ⟨f, hf⟩ := List.getElem?_of_mem ho
      cases o with
      | send md mid st =>
        cases st with
        | waiting h' =>
          have h3 : h' = h := by
            by_cases hh : h' = h
            · exact hh
            · simp [oWs, sWs, is1, hh] at h3
          subst h3
          obtain ⟨th, hr, -⟩ := id hq
          have := (wsId_reachable hr).obj hf hx
          exact hp f md m ⟨h', wk, by rw [this]; exact hf, hx⟩
        | _ => simp [oWs, sWs] at h3
      | _ => simp [oWs] at h3
    constructor <;> (rw [List.eq_nil_iff_forall_not_mem]; intro m hm; obtain ⟨h, wk, -, h2⟩ := mem_parkedMsgs.mp hm; exact key _ _ _ h2)
  obtain ⟨n1, n2⟩ := hnone
  clear hp
  have gen : ∀ {w w' : World} {ams : List AMsg}, Receives i b w ams w' → Quiet cap w → w.objs[i]? = some (.mailbox b) →
      parkedMsgs w.ws w.wOne = [] → parkedMsgs w.ws w.wAll = [] →
      (ams.filter (· ≠ .shutdown)).Pairwise (fun x y => y.prio ≤ x.prio) := by
    intro w w' ams hr
    induction hr with
    | nil => intros; simp
    | recv h1 h2 hy hr ih =>
      rename_i w w1 w2 w' wk am ams
      intro hq hi n1 n2
      have hs := receive_step hq hi h1 h2 hy
      have hq2 := (hq.does h1).does h2
      have hi2 : w2.objs[i]? = some (.mailbox b) := by rw [hs.obj]; exact hi
      have m1 : parkedMsgs w2.ws w2.wOne = [] := by
        rw [List.eq_nil_iff_forall_not_mem]; intro x hx; have := hs.one x hx; rw [n1] at this; simp at this
      have m2 : parkedMsgs w2.ws w2.wAll = [] := by
        rw [List.eq_nil_iff_forall_not_mem]; intro x hx; have := hs.all x hx; rw [n2] at this; simp at this
      have hrest := ih hq2 hi2 m1 m2
      have d := receives_drained hr hq2 hi2
      have hin : ∀ y ∈ ams, y ≠ .shutdown → (∃ m, y = .one m ∧ m ∈ w.uq) ∨ (∃ m, y = .all m ∧ m ∈ w.items b) := by
        intro y hy hne
        have e1 : ∀ x, x ∈ w2.pU → x ∈ w.uq := by
          intro x hx
          have : x ∈ w.pU := by
            rcases hs.out with ⟨m, -, -, -, h, -⟩ | ⟨m, -, -, -, -, h, -⟩ | ⟨-, -, -, -, h, -⟩
            · exact h.mem_iff.mp (by simp [hx])
            · rw [← h]; exact hx
            · rw [← h]; exact hx
          simpa [World.pU, n1] using this
        have e2 : ∀ x, x ∈ w2.pB b → x ∈ w.items b := by
          intro x hx
          have : x ∈ w.pB b := by
            rcases hs.out with ⟨m, -, -, -, -, h, -⟩ | ⟨m, -, -, -, h, -⟩ | ⟨-, -, -, -, -, h, -⟩
            · rw [← h]; exact hx
            · exact h.mem_iff.mp (by simp [hx])
            · rw [← h]; exact hx
          simpa [World.pB, n2] using this
        cases y with
        | one m => left; exact ⟨m, rfl, e1 m (d.uni.mem_iff.mp (by simp; left; exact ⟨_, hy, rfl⟩))⟩
        | all m => right; exact ⟨m, rfl, e2 m (d.bc.mem_iff.mp (by simp; left; exact ⟨_, hy, rfl⟩))⟩
        | shutdown => exact absurd rfl hne
      have hle : ∀ (p : Prio), (∀ x ∈ w.uq, x.prio ≤ p) → (∀ x ∈ w.items b, x.prio ≤ p) →
          ∀ y ∈ ams.filter (· ≠ .shutdown), y.prio ≤ p := by
        intro p a1 a2 y hy
        obtain ⟨hy1, hy2⟩ := List.mem_filter.mp hy
        rcases hin y hy1 (by simpa using hy2) with ⟨m, rfl, hm⟩ | ⟨m, rfl, hm⟩
        · exact a1 m hm
        · exact a2 m hm
      rcases hs.out with ⟨m, rfl, a1, a2, -⟩ | ⟨m, rfl, a1, a2, -⟩ | ⟨rfl, -⟩
      · rw [List.filter_cons_of_pos (by simp)]
        exact List.pairwise_cons.mpr ⟨hle _ a1 a2, hrest⟩
      · rw [List.filter_cons_of_pos (by simp)]
        exact List.pairwise_cons.mpr ⟨hle _ a1 a2, hrest⟩
      · rw [List.filter_cons_of_neg (by simp)]; exact hrest
    | handle hc hd hr ih =>
      intro hq hi n1 n2
      have k := handles_keeps hq hc hi hd
      exact ih (hq.does hd) (by rw [k.obj]; exact hi) (by rw [k.ws, k.wOne]; exact n1) (by rw [k.ws, k.wAll]; exact n2)
  exact gen hr hq hi n1 n2

theorem receives_count {cap : Option Nat} {i b : Nat} {w w' : World} {ams : List AMsg} (hq : Quiet cap w)
    (hi : w.objs[i]? = some (.mailbox b)) (hr : Receives i b w ams w') :
    ams.length + w'.pU.length + (w'.pB b).length ≤ w.backlog b + ams.count .shutdown := by
  have d := receives_drained hr hq hi
  have h1 := d.uni.length_eq
  have h2 := d.bc.length_eq
  have h3 := hq.backlog b
  have h4 := len_split ams
  simp only [List.length_append] at h1 h2
  omega

/-- **C13.** With no strong address left the actor can go on receiving for ever (every receive completes), and the
shutdown notice is reached after at most as many receives as there are queued messages and parked sends. -/
theorem C13_shutdown_reached {cap : Option Nat} {i b : Nat} {w : World} (hq : Quiet cap w)
    (hi : w.objs[i]? = some (.mailbox b)) (h0 : w.strongRefs = 0) :
    (∀ n, ∃ ams w', Receives i b w ams w' ∧ ams.length = n) ∧
    (∀ ams w', Receives i b w ams w' → w.backlog b < ams.length → .shutdown ∈ ams) := by
  have hsc : w.sc = 0 := by rw [(C14_counts_exact_quiet hq).1]; exact h0
  refine ⟨fun n => ?_, fun ams w' hr hl => ?_⟩
  · clear h0
    induction n generalizing w with
    | zero => exact ⟨[], w, .nil, rfl⟩
    | succ n ih =>
      obtain ⟨w1, w2, am, h1, h2, hy⟩ := receive_exists 0 hq hi (.inr (.inr hsc))
      have hs := receive_step hq hi h1 h2 hy
      obtain ⟨ams, w', h3, h4⟩ := ih ((hq.does h1).does h2) (by rw [hs.obj]; exact hi) (by rw [hs.sc]; exact hsc)
      exact ⟨am :: ams, w', .recv h1 h2 hy h3, by simp [h4]⟩
  · have h1 := receives_count hq hi hr
    exact List.count_pos_iff.mp (by omega)

/-! ### C29 -/

/-- **C29** (capacity at least 1). A send is parked and an actor receives: after as many receives as there are queued
messages and parked sends, the message has been handed out; and such receives are possible, they do not wait. (The
actor is not disturbed by further sends; messages of higher priority may legitimately overtake for ever.) -/
theorem C29_parked_progress_partial {cap : Option Nat} {i b f : Nat} {w : World} {md : Mode} {m : Msg} (hq : Quiet cap w)
    (hi : w.objs[i]? = some (.mailbox b)) (hc : cap ≠ some 0) (hp : w.parkedSend f md m) (hmd : md ≠ .bcast) :
    (∀ ams w', Receives i b w ams w' → w.backlog b ≤ ams.length → .one m ∈ ams) ∧
    (∃ ams w', Receives i b w ams w' ∧ .one m ∈ ams ∧ ams.length ≤ w.backlog b) := by
  have hm := hq.parked_pU hp hmd
  have first : ∀ ams w', Receives i b w ams w' → w.backlog b ≤ ams.length → .one m ∈ ams := by
    intro ams w' hr hl
    have d := receives_drained hr hq hi
    have h1 := receives_count hq hi hr
    rcases List.mem_append.mp (d.uni.mem_iff.mpr hm) with h2 | h2
    · obtain ⟨x, h3, h4⟩ := List.mem_filterMap.mp h2
      cases x <;> simp [AMsg.uni?] at h4; subst h4; exact h3
    · exfalso
      by_cases hs : .shutdown ∈ ams
      · obtain ⟨h3, -, -⟩ := d.shut hs
        simp [World.pU, h3, d.quiet.noParked hc h3] at h2
      · rw [List.count_eq_zero.mpr hs] at h1
        have := List.length_pos_of_mem h2
        omega
  have exist : ∀ n, ∃ ams w', Receives i b w ams w' ∧ ams.length ≤ n ∧ (.one m ∈ ams ∨ ams.length = n) := by
    intro n
    have gen : ∀ {w : World}, Quiet cap w → w.objs[i]? = some (.mailbox b) → m ∈ w.pU →
        ∃ ams w', Receives i b w ams w' ∧ ams.length ≤ n ∧ (.one m ∈ ams ∨ ams.length = n) := by
      induction n with
      | zero => intro w _ _ _; exact ⟨[], w, .nil, by simp, .inr rfl⟩
      | succ n ih =>
        intro w hq hi hm
        have hne : w.uq ≠ [] := by
          intro h; simp [World.pU, h, hq.noParked hc h] at hm
        obtain ⟨w1, w2, am, h1, h2, hy⟩ := receive_exists 0 hq hi (.inl hne)
        have hs := receive_step hq hi h1 h2 hy
        have hq2 := (hq.does h1).does h2
        have hi2 : w2.objs[i]? = some (.mailbox b) := by rw [hs.obj]; exact hi
        by_cases ha : am = .one m
        · subst ha
          exact ⟨[.one m], w2, .recv h1 h2 hy .nil, by simp, by simp⟩
        · have hm2 : m ∈ w2.pU := by
            rcases hs.out with ⟨m', rfl, -, -, h, -⟩ | ⟨m', -, -, -, -, h, -⟩ | ⟨-, -, -, -, h, -⟩
            · have := h.mem_iff.mpr hm
              simp at this
              rcases this with rfl | h
              · simp at ha
              · exact h
            · rw [h]; exact hm
            · rw [h]; exact hm
          obtain ⟨ams, w', h3, h4, h5⟩ := ih hq2 hi2 hm2
          refine ⟨am :: ams, w', .recv h1 h2 hy h3, by simp; omega, ?_⟩
          rcases h5 with h5 | h5
          · exact .inl (by simp [h5])
          · exact .inr (by simp [h5])
    exact gen hq hi hm
  refine ⟨first, ?_⟩
  obtain ⟨ams, w', h1, h2, h3⟩ := exist (w.backlog b)
  refine ⟨ams, w', h1, ?_, h2⟩
  rcases h3 with h3 | h3
  · exact h3
  · exact first ams w' h1 (by omega)

/-! ### the hypotheses are met -/

/-- One message queued, one send parked (capacity 1), then the only strong address is dropped. -/
def exDrainSched : List Act := exEndSched ++ [.call (.dropAddr 0), .exec 4, .exec 4]

/-- Both messages are received, the first is handled in between, then comes the shutdown notice.
Meets the hypotheses of `C13_drained_before_shutdown`, `C13_shutdown_reached`, `C29_parked_progress_partial`. -/
example : ∃ w w', Quiet (some 1) w ∧ w.objs[1]? = some (.mailbox 0) ∧ w.strongRefs = 0 ∧ ⟨0, .valued 0⟩ ∈ w.uq ∧
    w.parkedSend 3 .ret ⟨1, .valued 0⟩ ∧
    Receives 1 0 w [.one ⟨0, .valued 0⟩, .one ⟨1, .valued 0⟩, .shutdown] w' :=
  ⟨_, _, ⟨_, Reachable.run .init (as := exDrainSched) rfl, by decide⟩, rfl, by decide, by decide, ⟨0, some 7, rfl, rfl⟩,
    .recv (wk := 0) ⟨_, _, rfl, .nil⟩ ⟨_, _, rfl, .cons .nil⟩ ⟨rfl, rfl⟩
    (.handle (c := .dispatch 4) rfl ⟨_, _, rfl, .nil⟩
    (.handle (c := .finish 4 8) rfl ⟨_, _, rfl, .cons (.cons (.cons .nil))⟩
    (.recv (wk := 0) ⟨_, _, rfl, .nil⟩ ⟨_, _, rfl, .cons .nil⟩ ⟨rfl, rfl⟩
    (.recv (wk := 0) ⟨_, _, rfl, .nil⟩ ⟨_, _, rfl, .cons .nil⟩ ⟨rfl, rfl⟩ .nil))))⟩

theorem noParkedSend {w : World} (h : w.ws = []) (f : Nat) (md : Mode) (m : Msg) : ¬ w.parkedSend f md m := by
  rintro ⟨k, wk, -, h2⟩; rw [h] at h2; simp at h2

/-- A broadcast of priority 7, then unicast messages of priority 5 and 0 (see `exRecvSched`); nobody is parked.
Meets the hypotheses of `C13_priority_order`. -/
example : ∃ w w', Quiet (some 2) w ∧ w.objs[1]? = some (.mailbox 0) ∧ (∀ f md m, ¬ w.parkedSend f md m) ∧
    Receives 1 0 w [.all ⟨1, .valued 7⟩, .one ⟨0, .valued 5⟩, .one ⟨2, .valued 0⟩] w' :=
  ⟨_, _, ⟨_, Reachable.run .init (as := exRecvSched) rfl, by decide⟩, rfl, noParkedSend rfl,
    .recv (wk := 0) ⟨_, _, rfl, .nil⟩ ⟨_, _, rfl, .cons .nil⟩ ⟨rfl, rfl⟩
    (.recv (wk := 0) ⟨_, _, rfl, .nil⟩ ⟨_, _, rfl, .cons .nil⟩ ⟨rfl, rfl⟩
    (.recv (wk := 0) ⟨_, _, rfl, .nil⟩ ⟨_, _, rfl, .cons .nil⟩ ⟨rfl, rfl⟩ .nil))⟩

/-! ### where C13 and C29 fail -/

/-- A send on a weak address finds the actor connected; then the last strong address is dropped and the drop takes the
list of idle receivers (one, object 2); then the send enters its critical section and queues; then the drop notifies. -/
def raceSched : List Act :=
  [.call (.next 1), .call (.pollRecv 2 0), .exec 1, .exec 1, .call (.downgrade 0), .call (.send 3), .call (.pollSend 4 7),
   .exec 4, .exec 4, .call (.dropAddr 0), .exec 5, .exec 5, .exec 4, .exec 4, .exec 4, .exec 5]

/-- For a receive future that was already waiting, C13 fails in this interleaving: all calls have returned, a message is
queued, no strong address is left, and the waiting receive yields the shutdown notice, the message still queued. (A
fresh receive would yield the message: `C13_drained_before_shutdown`.) -/
theorem C13_waiting_receive_refuted : ∃ w w', Quiet none w ∧ w.strongRefs = 0 ∧ ⟨0, .valued 0⟩ ∈ w.uq ∧
    Does w (.pollRecv 2 9) w' ∧ w'.yielded 2 0 .shutdown ∧ ⟨0, .valued 0⟩ ∈ w'.uq :=
  ⟨_, _, ⟨_, Reachable.run .init (as := raceSched) rfl, by decide⟩, by decide, by decide, ⟨_, _, rfl, .cons .nil⟩,
    ⟨rfl, rfl⟩, by decide⟩

/-- Nothing queued, nothing handed over, a strong address, and a parked send. -/
structure Stuck0 (cap : Option Nat) (L : List Ev) (f : Nat) (md : Mode) (m : Msg) (w : World) : Prop where
  quiet : Quiet cap w
  uq : w.uq = []
  items : ∀ b, w.items b = []
  sc : w.sc ≠ 0
  cells : ∀ (c : Nat) (k : Ctrl) (x : Option Nat), w.cells[c]? ≠ some (.full k x)
  parked : w.parkedSend f md m
  silent : ∀ r b am, .recv r b am ∈ w.log → .recv r b am ∈ L

theorem recvPoll_stuck {cap : Option Nat} {w w' : World} {r b c wk : Nat} (h : Solo cap w [.recvPoll r b c wk])
    (hr : Runs w [.recvPoll r b c wk] w') {x : Option Nat} (hc : w.cells[c]? = some (.empty x)) :
    w' = ((({ w with cells := w.cells.set c (.empty (some wk)) } : World).setObj r (.recv b (.waiting c))).ev (.recvPending r wk)) := by
  obtain ⟨w1, ns, he, hs, hr1⟩ := h.exec hr
  cases he with
  | recvPoll_empty => exact runs_nil hr1
  | recvPoll_one h => rw [hc] at h; simp at h
  | recvPoll_shutdown h => rw [hc] at h; simp at h
  | recvPoll_bcast h => rw [hc] at h; simp at h
  | recvPoll_panic h => rw [hc] at h; simp at h

theorem set_noFull {cells : List RxCell} (h : ∀ (c : Nat) (k : Ctrl) (x : Option Nat), cells[c]? ≠ some (.full k x)) (d : Nat)
    (y : Option Nat) : ∀ (c : Nat) (k : Ctrl) (x : Option Nat), (cells.set d (.empty y))[c]? ≠ some (.full k x) := by
  intro c k x hx
  rcases set_cases hx with ⟨-, h2⟩ | h2
  · simp at h2
  · exact h c k x h2.2

theorem Stuck0.step {cap : Option Nat} {L : List Ev} {f : Nat} {md : Mode} {m : Msg} {w w' : World} {c : Call} (h : Stuck0 cap L f md m w) (hc : c.receives = true)
    (hd : Does w c w') : Stuck0 cap L f md m w' := by
  have hq' := h.quiet.does hd
  obtain ⟨w1, ms, hc1, hm⟩ := hd
  have hcr := call_rel hc1
  have hs := h.quiet.call hc1
  obtain ⟨k, pk, hp1, hp2⟩ := h.parked
  have hfl := (List.getElem?_eq_some_iff.mp hp1).1
  have hset : ∀ {r b st}, w.objs[r]? = some (.recv b st) → ∀ (l : List Obj) (y : Obj), l[f]? = w.objs[f]? → (l.set r y)[f]? = w.objs[f]? := by
    intro r b st hr l y hl
    have : r ≠ f := by rintro rfl; rw [hp1] at hr; simp at hr
    rw [List.getElem?_set_ne this, hl]
  have hbq := callR_bqs hcr
  cases hcr <;> simp [Call.receives] at hc
  case next i o b ho hb =>
    have := runs_nil hm; subst this
    refine ⟨hq', by simpa using h.uq, fun b => by rw [hbq.2.2]; exact h.items b, by simpa using h.sc, by simpa using h.cells,
      ⟨k, pk, ?_, by simpa using hp2⟩, by simpa using h.silent⟩
    simp [World.addObj, List.getElem?_append_left hfl, hp1]
  case pollRecv_new r wk b ho =>
    have hrl := (List.getElem?_eq_some_iff.mp ho).1
    obtain ⟨w2, ns, he, hs2, hr2⟩ := hs.exec hm
    cases he with
    | recv_all hp h1 h2 => have h3 : (w.setObj r .busy).items b = [] := h.items b; rw [h3] at h1; simp at h1
    | recv_one hp h1 h2 => have h3 := h.uq; simp [World.setObj] at h1; rw [h3] at h1; simp at h1
    | recv_shutdown h1 h2 h3 => exact absurd h3 h.sc
    | recv_wait h1 h2 h3 =>
      have := recvPoll_stuck (x := none) hs2 hr2 (by simp)
      subst this
      have hno : ∀ (c : Nat) (k : Ctrl) (x : Option Nat), (w.cells ++ [RxCell.empty none])[c]? ≠ some (.full k x) := by
        intro c k x hx
        rcases append_cases hx with h4 | ⟨-, h4⟩
        · exact h.cells c k x h4.2
        · simp at h4
      refine ⟨hq', h.uq, h.items, h.sc, set_noFull hno _ _, ⟨k, pk, ?_, hp2⟩, by simpa [World.ev, World.setObj] using h.silent⟩
      exact (hset ho _ _ (hset ho _ _ rfl)).trans hp1
  case pollRecv_waiting r wk b c ho =>
    have hwf := hs.wf
    obtain ⟨x, h1, h2, h3⟩ := hwf.2
    have hce : ∃ y, w.cells[c]? = some (.empty y) := by
      have h1 : w.cells[c]? = some x := h1
      cases x with
      | empty y => exact ⟨y, h1⟩
      | full kk y => exact absurd h1 (h.cells c kk y)
      | used => simp at h2
      | gone => simp at h3
    obtain ⟨y, hce⟩ := hce
    have := recvPoll_stuck (x := y) hs hm hce
    subst this
    refine ⟨hq', h.uq, h.items, h.sc, set_noFull h.cells _ _, ⟨k, pk, ?_, hp2⟩, by simpa [World.ev, World.setObj] using h.silent⟩
    exact (hset ho _ _ (hset ho _ _ rfl)).trans hp1

theorem Stuck0.all {cap : Option Nat} {L : List Ev} {f : Nat} {md : Mode} {m : Msg} {w w' : World} {cs : List Call} (h : Stuck0 cap L f md m w)
    (hc : ∀ c ∈ cs, c.receives = true) (hd : DoesAll w cs w') : Stuck0 cap L f md m w' := by
  induction hd with
  | nil => exact h
  | cons h1 h2 ih => exact ih (h.step (hc _ (by simp)) h1) (fun c hx => hc c (by simp [hx]))

theorem items_nil {w : World} {n : Nat} (h : w.bq = [⟨n, []⟩]) (b : Nat) : w.items b = [] := by
  unfold World.items; rw [h]; cases b <;> simp
theorem noCells {w : World} (h : w.cells = []) (c : Nat) (k : Ctrl) (x : Option Nat) : w.cells[c]? ≠ some (.full k x) := by
  rw [h]; simp

def Ev.isRecv : Ev → Bool
  | .recv _ _ _ => true
  | _ => false
theorem noRecvs {log : List Ev} (h : log.all (fun e => !e.isRecv) = true) (r b : Nat) (am : AMsg) : .recv r b am ∉ log := by
  intro hx; have := List.all_eq_true.mp h _ hx; simp [Ev.isRecv] at this

/-- A send polled on a mailbox of capacity 0 before anybody receives. -/
def exZeroSched : List Act := [.call (.send 0), .call (.pollSend 2 7), .exec 1, .exec 1, .exec 1, .exec 1, .exec 1]

/-- **C29 is false of the code** for capacity 0: the send is parked, and however many receive futures are created and
polled, however often, by that mailbox or clones of it, none of them yields anything and the send stays parked. -/
theorem C29_refuted : ∃ w, Quiet (some 0) w ∧ w.objs[1]? = some (.mailbox 0) ∧ w.parkedSend 2 .ret ⟨0, .valued 0⟩ ∧
    ∀ cs w', (∀ c ∈ cs, c.receives = true) → DoesAll w cs w' →
      w'.parkedSend 2 .ret ⟨0, .valued 0⟩ ∧ ∀ r b am, .recv r b am ∉ w'.log := by
  refine ⟨_, ⟨_, Reachable.run .init (as := exZeroSched) rfl, by decide⟩, rfl, ⟨0, some 7, rfl, rfl⟩, fun cs w' hc hd => ?_⟩
  have h0 : Stuck0 (some 0) [] 2 .ret ⟨0, .valued 0⟩ _ := ⟨⟨_, Reachable.run .init (as := exZeroSched) rfl, by decide⟩, rfl,
    items_nil (n := 1) rfl, by decide, noCells rfl, ⟨0, some 7, rfl, rfl⟩, fun r b am hx => absurd hx (noRecvs rfl r b am)⟩
  have h1 := h0.all hc hd
  exact ⟨h1.parked, fun r b am hx => by simpa using h1.silent r b am hx⟩

/-- Such receives exist: one is created and polled. -/
example : ∃ w w', Quiet (some 0) w ∧ w.parkedSend 2 .ret ⟨0, .valued 0⟩ ∧ DoesAll w [.next 1, .pollRecv 3 5] w' ∧
    w'.idleReceiver 3 0 ∧ w'.parkedSend 2 .ret ⟨0, .valued 0⟩ :=
  ⟨_, _, ⟨_, Reachable.run .init (as := exZeroSched) rfl, by decide⟩, ⟨0, some 7, rfl, rfl⟩,
    .cons ⟨_, _, rfl, .nil⟩ (.cons ⟨_, _, rfl, .cons (.cons .nil)⟩ .nil), ⟨0, some 5, rfl, rfl⟩, ⟨0, some 7, rfl, rfl⟩⟩

end Xtra
