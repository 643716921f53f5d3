import Verif.PropsOrigin
import Verif.PropsStop
import Verif.PropsConc4
/-! # C71: wake-ups are to the point -/

set_option linter.unusedSimpArgs false

namespace Xtra

/-- The step from `s` to `s'` wakes the task that awaits the future `f`: the latest poll of `f` returned `Pending` and registered a waker, which
the step takes out and wakes. -/
def Sys.wakes (s s' : Sys) (f : Nat) : Prop :=
  ∃ o wk, s.w.objs[f]? = some o ∧ s.w.sleeps wk o ∧ s'.w.wokenUp wk o

/-- The places in which wakers are registered. -/
inductive Bed where
  | ws (h : Nat)
  | cell (c : Nat)
  | resp (i : Nat)
  | lst (l : Nat)
  deriving DecidableEq

def Bed.wakes (w w' : World) : Bed → Prop
  | .ws h => ∃ wk m, w.ws[h]? = some (.active (some wk) m) ∧ (w'.ws[h]? = some (.delivered (some wk)) ∨ w'.ws[h]? = some (.closed (some wk)))
  | .cell c => ∃ wk k, w.cells[c]? = some (.empty (some wk)) ∧ w'.cells[c]? = some (.full k (some wk))
  | .resp i => ∃ wk, w.resp[i]? = some (.waiting (some wk)) ∧ ((∃ v, w'.resp[i]? = some (.value v (some wk))) ∨ w'.resp[i]? = some (.interrupted (some wk)))
  | .lst l => ∃ wk, w.lst[l]? = some (.waiting (some wk)) ∧ w'.lst[l]? = some (.notified (some wk))


theorem Bed.wakes_of {w w' : World} {x : Bed} (h1 : w'.ws = w.ws ∨ (∃ h y, x = .ws h ∧ w'.ws = w.ws.set h y) ∨ (∃ h y, w'.ws = w.ws.set h y ∧ ∀ wk, y ≠ .delivered wk ∧ y ≠ .closed wk) ∨
      ∃ y, w'.ws = w.ws ++ [y])
    (h2 : w'.cells = w.cells ∨ (∃ c y, x = .cell c ∧ w'.cells = w.cells.set c y) ∨ (∃ c y, w'.cells = w.cells.set c y ∧ ∀ k wk, y ≠ .full k wk) ∨ ∃ y, w'.cells = w.cells ++ [y])
    (h3 : w'.resp = w.resp ∨ (∃ i g, x = .resp i ∧ w'.resp = w.resp.modify i g) ∨ (∃ i wk, w'.resp = w.resp.set i (.waiting wk)) ∨ ∃ y, w'.resp = w.resp ++ [y])
    (h4 : w'.lst = w.lst ∨ (∃ l wk, w'.lst = w.lst.set l (.waiting wk)) ∨ ∃ y, w'.lst = w.lst ++ [y]) : ∀ y, Bed.wakes w w' y → y = x := by
  intro y hy
  cases y with
  | ws h =>
    obtain ⟨wk, m, a, b⟩ := hy
    rcases h1 with h1 | ⟨h', y, rfl, h1⟩ | ⟨h', y, h1, h5⟩ | ⟨y, h1⟩ <;> rw [h1] at b
    · rw [a] at b; simp at b
    · grind
    · have := h5 (some wk); grind
    · grind
  | cell c =>
    obtain ⟨wk, k, a, b⟩ := hy
    rcases h2 with h2 | ⟨h', y, rfl, h2⟩ | ⟨h', y, h2, h5⟩ | ⟨y, h2⟩ <;> rw [h2] at b
    · rw [a] at b; simp at b
    · grind
    · have := h5 k (some wk); grind
    · grind
  | resp i =>
    obtain ⟨wk, a, b⟩ := hy
    rcases h3 with h3 | ⟨i', g, rfl, h3⟩ | ⟨h', y, h3⟩ | ⟨y, h3⟩ <;> rw [h3] at b
    · rw [a] at b; simp at b
    · by_cases e : i = i'
      · rw [e]
      · rw [List.getElem?_modify] at b; simp [Ne.symm e, a] at b
    · grind
    · grind
  | lst l =>
    obtain ⟨wk, a, b⟩ := hy
    rcases h4 with h4 | ⟨h', y, h4⟩ | ⟨y, h4⟩ <;> rw [h4] at b
    · rw [a] at b; simp at b
    · grind
    · grind

/-- In one step at most one waker is woken, unless a broadcast is accepted in it or the last mailbox has gone. -/
theorem execR_single {w w' : World} {mc : Micro} {ms : List Micro} (h : ExecR w mc w' ms) (r : RegWs w.ws w.wOne w.wAll) :
    mc = .shutTx ∨ (∃ m live l, w'.log = l ++ w.log ∧ .bsent m live ∈ l) ∨ ∃ x, ∀ y, Bed.wakes w w' y → y = x := by
  have pb : ∀ {b m} {w1 : World}, w.popBroadcast b = some (m, w1) → (∃ m live, w1.log = .bsent m live :: w.log) ∨
      (w1.ws = w.ws ∧ w1.cells = w.cells ∧ w1.resp = w.resp ∧ w1.lst = w.lst) := by
    intro b m w1 hp
    have hc : ∀ q, (w.afterPop b q).ws = w.ws ∧ (w.afterPop b q).cells = w.cells ∧ (w.afterPop b q).resp = w.resp ∧
      (w.afterPop b q).lst = w.lst ∧ (w.afterPop b q).log = w.log := fun q => by unfold World.afterPop; split <;> simp
    obtain ⟨q, -, ⟨-, rfl⟩ | ⟨-, hg, rfl⟩ | ⟨-, h', wk, m', q', t, rfl⟩⟩ := popBroadcast_cases r.all hp
    · exact .inr ⟨(hc q).1, (hc q).2.1, (hc q).2.2.1, (hc q).2.2.2.1⟩
    · exact .inr ⟨(hc q).1, (hc q).2.1, (hc q).2.2.1, (hc q).2.2.2.1⟩
    · exact .inl ⟨m', _, by simp [World.sendBroadcast, (hc q).2.2.2.2]; rfl⟩
  cases h
  case shutTx => exact .inl rfl
  case critAll_sent m _ _ _ =>
    refine .inr (.inl ⟨m, w.bqs.filter w.alive, .bsent m (w.bqs.filter w.alive) :: (if w.rcv = 0 then [.late m.id] else []), ?_, List.mem_cons_self ..⟩)
    simp only [World.sendBroadcast, World.lateLog]; split <;> rfl
  case bcastShutdown => exact .inr (.inl ⟨_, _, [_], rfl, List.mem_cons_self ..⟩)
  case recv_all hp _ _ =>
    rcases pb hp with ⟨m, live, h⟩ | ⟨h1, h2, h3, h4⟩
    · exact .inr (.inl ⟨m, live, _ :: _ :: [], by simp [h]; exact ⟨rfl, rfl⟩, by simp⟩)
    · exact .inr (.inr ⟨.lst 0, Bed.wakes_of (.inl (by simpa using h1)) (.inl (by simpa using h2)) (.inl (by simpa using h3)) (.inl (by simpa using h4))⟩)
  case recvBcast_some c _ _ _ hp =>
    rcases pb hp with ⟨m, live, h⟩ | ⟨h1, h2, h3, h4⟩
    · exact .inr (.inl ⟨m, live, _ :: _ :: [], by simp [h]; exact ⟨rfl, rfl⟩, by simp⟩)
    · exact .inr (.inr ⟨.lst 0, Bed.wakes_of (.inl (by simpa using h1)) (.inr (.inr (.inl ⟨c, .gone, by simp [h2], by simp⟩))) (.inl (by simpa using h3))
        (.inl (by simpa using h4))⟩)
  case recv_one hp _ _ =>
    right; right
    obtain ⟨q, -, ⟨-, rfl⟩ | ⟨-, hg, rfl⟩ | ⟨-, h, wk, m', q', t, rfl⟩⟩ := popUnicast_cases r.one hp
    · exact ⟨.lst 0, Bed.wakes_of (.inl rfl) (.inl rfl) (.inl rfl) (.inl rfl)⟩
    · exact ⟨.lst 0, Bed.wakes_of (.inl rfl) (.inl rfl) (.inl rfl) (.inl rfl)⟩
    · exact ⟨.ws h, Bed.wakes_of (.inr (.inl ⟨h, _, rfl, rfl⟩)) (.inl rfl) (.inl rfl) (.inl rfl)⟩
  case dropBq b => exact .inr (.inr ⟨.lst 0, Bed.wakes_of (.inl (by simp)) (.inl (by simp)) (.inl (by simp)) (.inl (by simp))⟩)
  case notifyShut c =>
    right; right
    refine ⟨.cell c, Bed.wakes_of (.inl rfl) ?_ (.inl rfl) (.inl rfl)⟩
    show notifyCell _ _ _ = _ ∨ _
    unfold notifyCell; split
    · exact .inr (.inl ⟨c, _, rfl, rfl⟩)
    · exact .inl rfl
  all_goals
    right; right
    first
    | exact ⟨.lst 0, Bed.wakes_of (.inl rfl) (.inl rfl) (.inl rfl) (.inl rfl)⟩
    | exact ⟨.resp _, Bed.wakes_of (.inl rfl) (.inl rfl) (.inr (.inl ⟨_, _, rfl, rfl⟩)) (.inl rfl)⟩
    | exact ⟨.resp _, Bed.wakes_of (.inr (.inr (.inl ⟨_, _, rfl, by simp⟩))) (.inl rfl) (.inr (.inl ⟨_, _, rfl, rfl⟩)) (.inl rfl)⟩
    | exact ⟨.resp _, Bed.wakes_of (.inl rfl) (.inr (.inr (.inl ⟨_, _, rfl, by simp⟩))) (.inr (.inl ⟨_, _, rfl, rfl⟩)) (.inl rfl)⟩
    | exact ⟨.lst 0, Bed.wakes_of (.inr (.inr (.inr ⟨_, rfl⟩))) (.inl rfl) (.inl rfl) (.inl rfl)⟩
    | exact ⟨.lst 0, Bed.wakes_of (.inr (.inr (.inl ⟨_, _, rfl, by simp⟩))) (.inl rfl) (.inl rfl) (.inl rfl)⟩
    | exact ⟨.cell _, Bed.wakes_of (.inl rfl) (.inr (.inl ⟨_, _, rfl, rfl⟩)) (.inl rfl) (.inl rfl)⟩
    | exact ⟨.lst 0, Bed.wakes_of (.inl rfl) (.inr (.inr (.inr ⟨_, rfl⟩))) (.inl rfl) (.inl rfl)⟩
    | exact ⟨.lst 0, Bed.wakes_of (.inl rfl) (.inl rfl) (.inr (.inr (.inl ⟨_, _, rfl⟩))) (.inl rfl)⟩

/-- Beginning a call wakes nobody. -/
theorem callR_calm {w w' : World} {c : Call} {ms : List Micro} (h : CallR w c w' ms) (y : Bed) : ¬ Bed.wakes w w' y := by
  have h1 : w'.ws = w.ws ∧ w'.cells = w.cells := by cases h <;> simp
  have h3 : w'.resp = w.resp ∨ (∃ i wk, w'.resp = w.resp.set i (.waiting wk)) ∨ ∃ y, w'.resp = w.resp ++ [y] := by
    cases h <;> first | exact .inl rfl | exact .inr (.inl ⟨_, _, rfl⟩) | exact .inr (.inr ⟨_, rfl⟩) | exact .inl (by simp)
  have h4 : w'.lst = w.lst ∨ (∃ l wk, w'.lst = w.lst.set l (.waiting wk)) ∨ ∃ y, w'.lst = w.lst ++ [y] := by
    cases h <;> first | exact .inl rfl | exact .inr (.inl ⟨_, _, rfl⟩) | exact .inr (.inr ⟨_, rfl⟩) | exact .inl (by simp)
  intro hy
  have := Bed.wakes_of (x := .ws w.ws.length) (.inl h1.1) (.inl h1.2) (by rcases h3 with h | h | h <;> simp [h]) h4 y hy
  subst this
  obtain ⟨wk, m, a, -⟩ := hy
  simp at a

/-- The waker of a sleeping future is registered in one place. -/
theorem wakes_bed {s s' : Sys} {f : Nat} (h : s.wakes s' f) :
    ∃ o x, s.w.objs[f]? = some o ∧ Bed.wakes s.w s'.w x ∧
      ((∃ md mid h, o = .send md mid (.waiting h) ∧ x = .ws h) ∨ (∃ b c, o = .recv b (.waiting c) ∧ x = .cell c) ∨
       (∃ mid, ((∃ md, o = .send md mid .done) ∨ o = .reply mid) ∧ x = .resp mid) ∨ (∃ l, o = .join (some l) ∧ x = .lst l)) := by
  obtain ⟨o, wk, ho, h1, h2⟩ := h
  cases o with
  | send md mid st =>
    cases st with
    | new => exact h1.elim
    | waiting h => obtain ⟨m, h1⟩ := h1; exact ⟨_, .ws h, ho, ⟨wk, m, h1, h2⟩, .inl ⟨_, _, _, rfl, rfl⟩⟩
    | done => exact ⟨_, .resp mid, ho, ⟨wk, h1, h2⟩, .inr (.inr (.inl ⟨_, .inl ⟨_, rfl⟩, rfl⟩))⟩
  | reply mid => exact ⟨_, .resp mid, ho, ⟨wk, h1, h2⟩, .inr (.inr (.inl ⟨_, .inr rfl, rfl⟩))⟩
  | recv b st =>
    cases st with
    | new => exact h1.elim
    | waiting c => obtain ⟨k, h2⟩ := h2; exact ⟨_, .cell c, ho, ⟨wk, k, h1, h2⟩, .inr (.inl ⟨_, _, rfl, rfl⟩)⟩
  | join l =>
    cases l with
    | none => exact h1.elim
    | some l => exact ⟨_, .lst l, ho, ⟨wk, h1, h2⟩, .inr (.inr (.inr ⟨_, rfl, rfl⟩))⟩
  | _ => exact h1.elim

/-- **C71.** No thundering herd: unless a broadcast (or the notice of `stop_all`) enters the mailboxes in it, or no mailbox is left, no step of
any execution wakes two tasks. In particular a message sent to one actor wakes at most one of the actors that wait, and a receive lets in, and
wakes, at most one of the sends that wait for room. -/
theorem C71_one_at_a_time {cap : Option Nat} {s s' : Sys} {a : Act} {f g : Nat} (h : Reachable cap s) (hs : s.step a = some s')
    (hf : s.wakes s' f) (hg : s.wakes s' g) (hne : f ≠ g) :
    (∃ m live l, s'.w.log = l ++ s.w.log ∧ .bsent m live ∈ l) ∨ s.w.rcv = 0 := by
  obtain ⟨o, x, ho, hx, hk⟩ := wakes_bed hf
  obtain ⟨o', x', ho', hx', hk'⟩ := wakes_bed hg
  rcases step_rel hs with ⟨c, w', ms, rfl, hc, rfl⟩ | ⟨t, m, rest, w', ms, rfl, ht, he, rfl⟩
  · exact absurd hx (callR_calm hc x)
  by_cases hst : m = .shutTx
  · subst hst
    exact .inr (shutTx_pending h (by have := tot_head mShutTx ht; simp [mShutTx] at this; omega))
  rcases execR_single he (regWs_reachable h) with h1 | h1 | ⟨y, h1⟩
  · exact absurd h1 hst
  · exact .inl h1
  · exfalso
    have hxx : x = x' := (h1 x hx).trans (h1 x' hx').symm
    subst hxx
    have kI := kInv_reachable h
    rcases hk with ⟨md, mid, h2, rfl, rfl⟩ | ⟨b, c, rfl, rfl⟩ | ⟨mid, h2, rfl⟩ | ⟨l, rfl, rfl⟩
    · simp at hk'
      obtain ⟨md', mid', rfl⟩ := hk'
      have h3 := two_le (oWs h2) hne ho ho'
      have h4 := (own_reachable h).ws h2
      simp [oWs, sWs, is1] at h3
      unfold wsL at h4; split at h4 <;> omega
    · simp at hk'
      obtain ⟨b', rfl⟩ := hk'
      have h3 := two_le (oCell c) hne ho ho'
      have h4 := (own_reachable h).cell c
      simp [oCell, rCell, is1] at h3
      unfold cellL at h4; split at h4 <;> omega
    · simp at hk'
      have hm : ∃ bc, Ev.made f mid bc ∈ s.w.log := by
        have := kI.kw.objs _ _ ho
        rcases h2 with ⟨md, rfl⟩ | rfl
        · exact ⟨_, this.1⟩
        · exact ⟨_, this⟩
      have hm' : ∃ bc, Ev.made g mid bc ∈ s.w.log := by
        have := kI.kw.objs _ _ ho'
        rcases hk' with ⟨md, rfl⟩ | rfl
        · exact ⟨_, this.1⟩
        · exact ⟨_, this⟩
      obtain ⟨_, hm⟩ := hm
      obtain ⟨_, hm'⟩ := hm'
      exact hne (((kI.uniq _ _ _ _ _ _ hm hm').1).mpr rfl)
    · obtain ⟨wk, h2, h3⟩ := hx
      rcases execR_lst he with ⟨h5, -⟩ | ⟨-, h5⟩
      · exact hst h5
      · rw [h5, h2] at h3; simp at h3

/-- A step hands a message to at most this one waiting receive, or puts a broadcast into all mailboxes, or gives notice of the shutdown. -/
theorem execR_cellWoken {w w' : World} {mc : Micro} {ms : List Micro} (h : ExecR w mc w' ms) (r : RegWs w.ws w.wOne w.wAll) (ob : BqsOk w)
    {c wk : Nat} {k : Ctrl} (h1 : w.cells[c]? = some (.empty (some wk))) (h2 : w'.cells[c]? = some (.full k (some wk))) :
    (∃ m, k = .newMessage m) ∨
    (∃ m l, w'.log = l ++ w.log ∧ .bsent m (w.bqs.filter w.alive) ∈ l ∧ ∀ b ∈ w.bqs.filter w.alive, m ∈ w'.items b) ∨
    mc = .notifyShut c := by
  have sb : ∀ (w0 : World) (m : Msg), BqsOk w0 → ∀ b ∈ w0.bqs.filter w0.alive, m ∈ (w0.sendBroadcast m).items b := by
    intro w0 m o b hb
    rw [sendBroadcast_items w0 m o.nodup, if_pos (List.mem_filter.mp hb)]
    exact (Heap.push_perm Msg.le _ _).mem_iff.mpr (List.mem_cons_self ..)
  have pb : ∀ {b m} {w1 : World}, w.popBroadcast b = some (m, w1) → w1.cells = w.cells ∨
      ∃ m, w1.log = .bsent m (w.bqs.filter w.alive) :: w.log ∧ ∀ b ∈ w.bqs.filter w.alive, m ∈ w1.items b := by
    intro b m w1 hp
    have hc : ∀ q, (w.afterPop b q).cells = w.cells ∧ (w.afterPop b q).log = w.log ∧ (w.afterPop b q).bqs = w.bqs := fun q => by
      unfold World.afterPop; split <;> simp
    obtain ⟨q, -, ⟨-, rfl⟩ | ⟨-, hg, rfl⟩ | ⟨-, h', wk, m', q', t, rfl⟩⟩ := popBroadcast_cases r.all hp
    · exact .inl (hc q).1
    · exact .inl (hc q).1
    · right
      have ha : (w.afterPop b q).bqs.filter (w.afterPop b q).alive = w.bqs.filter w.alive := by
        rw [(hc q).2.2]; congr 1; funext k; exact alive_congr (afterPop_refs w b q k)
      refine ⟨m', ?_, fun b' hb' => ?_⟩
      · show Ev.bsent m' ((w.afterPop b q).bqs.filter (w.afterPop b q).alive) :: (w.afterPop b q).log = _
        rw [ha, (hc q).2.1]
      · refine sb _ m' ?_ b' ?_
        · exact (ob.congr (hc q).2.2 (afterPop_bqlen w b q) : BqsOk (w.afterPop b q)).congr rfl rfl
        · show b' ∈ (w.afterPop b q).bqs.filter (w.afterPop b q).alive
          rw [ha]; exact hb'
  have nf : ∀ (d : Nat) (y : RxCell), (w.cells.set d y)[c]? = some (.full k (some wk)) → y = .full k (some wk) := by
    intro d y h
    rcases set_cases h with ⟨-, h⟩ | ⟨-, h⟩
    · exact h.symm
    · rw [h1] at h; simp at h
  cases h
  case notifyShut d =>
    replace h2 : (notifyCell w.cells d .shutdown)[c]? = some (.full k (some wk)) := h2
    unfold notifyCell at h2
    split at h2
    · rcases set_cases h2 with ⟨rfl, -⟩ | ⟨-, h⟩
      · exact .inr (.inr rfl)
      · rw [h1] at h; simp at h
    · rw [h1] at h2; simp at h2
  case critAll_sent m _ _ _ =>
    refine .inr (.inl ⟨m, .bsent m (w.bqs.filter w.alive) :: (if w.rcv = 0 then [.late m.id] else []), ?_, List.mem_cons_self .., ?_⟩)
    · simp only [World.sendBroadcast, World.lateLog]; split <;> rfl
    · exact sb ({ w with log := w.lateLog m } : World) m (ob.congr rfl rfl)
  case bcastShutdown =>
    exact .inr (.inl ⟨_, [_], rfl, List.mem_cons_self .., sb ({ w with resp := w.resp ++ [Resp.none] } : World) _ (ob.congr rfl rfl)⟩)
  case recv_all w1 hp _ _ =>
    rcases pb hp with h | ⟨m, h, h'⟩
    · simp [h] at h2; rw [h1] at h2; simp at h2
    · exact .inr (.inl ⟨m, _ :: _ :: [], by simp [h]; exact ⟨rfl, rfl⟩, by simp, fun b hb => by
        rw [items_congr (w := w1) (by simp)]; exact h' b hb⟩)
  case recvBcast_some c _ _ w1 hp =>
    rcases pb hp with h | ⟨m, h, h'⟩
    · simp [h] at h2; have := nf _ _ h2; simp at this
    · exact .inr (.inl ⟨m, _ :: _ :: [], by simp [h]; exact ⟨rfl, rfl⟩, by simp, fun b hb => by
        rw [items_congr (w := w1) (by simp)]; exact h' b hb⟩)
  case recv_one hp _ _ => simp [World.popUnicast_cells hp] at h2; rw [h1] at h2; simp at h2
  case critOne_hand => have := nf _ _ h2; simp at this; exact .inl ⟨_, this.1.symm⟩
  case requeue_hand => have := nf _ _ h2; simp at this; exact .inl ⟨_, this.1.symm⟩
  case recv_wait =>
    rcases append_cases h2 with ⟨-, h⟩ | ⟨-, h⟩
    · rw [h1] at h; simp at h
    · simp at h
  all_goals first
    | (rw [show _ = _ from h1] at h2; simp at h2; done)
    | (have := nf _ _ h2; simp at this; done)
    | (simp [h1] at h2; done)

/-- Why the task that awaits a future may be woken in a step from `w` to `w'` in which the events `l` happen. -/
def World.wakeReason (w w' : World) (l : List Ev) : Obj → Prop
  /- a waiting receive: a message was handed to it, or a broadcast was put into its mailbox, or no strong address is left -/
  | .recv b (.waiting c) => (∃ m x, w'.cells[c]? = some (.full (.newMessage m) x)) ∨
      (∃ m live, .bsent m live ∈ l ∧ b ∈ live ∧ m ∈ w'.items b) ∨ w.sc = 0
  /- a send that waits for room: its message entered the queue, or was broadcast; or no mailbox is left and the message was destroyed -/
  | .send md mid (.waiting _) => (md ≠ .bcast ∧ ∃ m ∈ w'.uq, m.id = mid) ∨ (md = .bcast ∧ ∃ m live, m.id = mid ∧ .bsent m live ∈ l) ∨
      (w.rcv = 0 ∧ .dropped mid ∈ l)
  /- somebody who awaits the answer: the handler of this very message has returned, or the message was destroyed -/
  | .send _ mid .done | .reply mid => (∃ v, .handled mid v ∈ l) ∨ .dropped mid ∈ l ∨ .discarded mid ∈ l ∨ .lost mid ∈ l
  /- a join handle: no mailbox is left -/
  | .join _ => w.rcv = 0
  | _ => False

/-- **C71.** Nobody is woken for nothing: if a step of any execution wakes the task that awaits a future, then because of something that
concerns this very future and happens in this step (or has happened to the channel as a whole). -/
theorem C71_reason {cap : Option Nat} {s s' : Sys} {a : Act} {f : Nat} (h : Reachable cap s) (hs : s.step a = some s') (hf : s.wakes s' f) :
    ∃ o l, s.w.objs[f]? = some o ∧ s'.w.log = l ++ s.w.log ∧ s.w.wakeReason s'.w l o := by
  obtain ⟨o, wk, ho, h1, h2⟩ := hf
  obtain ⟨l, hl⟩ := step_suffix h hs
  have h' : Reachable cap s' := .step h hs
  refine ⟨o, l, ho, hl.symm, ?_⟩
  rcases step_rel hs with ⟨c, w', ms, rfl, hc, rfl⟩ | ⟨t, mc, rest, w', ms, rfl, ht, he, rfl⟩
  · obtain ⟨o', x, -, hx, -⟩ := wakes_bed (⟨o, wk, ho, h1, h2⟩ : Sys.wakes s _ f)
    exact absurd hx (callR_calm hc x)
  have hsh : mc = .shutTx → s.w.rcv = 0 := by
    rintro rfl
    exact shutTx_pending h (by have := tot_head mShutTx ht; simp [mShutTx] at this; omega)
  have hresp : ∀ mid, s.w.resp[mid]? = some (.waiting (some wk)) →
      (∃ v, w'.resp[mid]? = some (.value v (some wk))) ∨ w'.resp[mid]? = some (.interrupted (some wk)) →
      (∃ v, .handled mid v ∈ l) ∨ .dropped mid ∈ l ∨ .discarded mid ∈ l ∨ .lost mid ∈ l := by
    intro mid hw hw'
    have r1 := resp_reachable h mid
    have r2 := resp_reachable h' mid
    have hl2 : l ++ s.w.log = w'.log := hl
    simp only at r2
    rw [hw] at r1
    rw [← hl2] at r2
    simp only [RespOk, destroyed] at r1
    rcases hw' with ⟨v, hw'⟩ | hw' <;> rw [hw'] at r2 <;> simp only [RespOk, destroyed, List.mem_append] at r2
    · exact .inl ⟨v, r2.resolve_right (r1.2 v)⟩
    · grind
  cases o with
  | send md mid st =>
    cases st with
    | new => exact h1.elim
    | waiting k =>
      obtain ⟨m, h1⟩ := h1
      have hid := (wsId_reachable h).obj ho h1
      have hq := parked_reg h ho h1
      have hnd := (regWs_reachable h).nodup
      have hun : ∀ e ∈ s.w.log, eAll m.id e = 0 := by
        have g1 := held_reachable h m.id
        have g2 := created_le m.id s.w
        have g3 := le_sumBy (wsW m.id) h1
        simp [wsW, mid1] at g3
        simp only [World.held] at g1
        rw [← sumBy_eq_zero]; omega
      rcases execR_evo he (regWs_reachable h) h1 with h3 | ⟨_, _, f', md', mid', wk', -, -, h3⟩ | ⟨wk', m', h4, h5, h6⟩ | ⟨wk', m', h4, h5, h6, h7⟩ | ⟨h3, -⟩
      · exfalso
        replace h2 : w'.ws[k]? = some (.delivered (some wk)) ∨ w'.ws[k]? = some (.closed (some wk)) := h2
        rw [h3] at h2; simp at h2
      · exfalso
        replace h2 : w'.ws[k]? = some (.delivered (some wk)) ∨ w'.ws[k]? = some (.closed (some wk)) := h2
        rw [h3] at h2; simp at h2
      · simp at h4
        obtain ⟨-, rfl⟩ := h4
        rcases h6 with ⟨h6, h7⟩ | ⟨h6, ts, h7⟩
        · refine .inl ⟨?_, m, h7, hid⟩
          rintro rfl
          exact List.nodup_append.mp hnd |>.2.2 k h6 k (hq.2 rfl) rfl
        · have hmd : md = .bcast := by
            apply Classical.byContradiction; intro hmd
            exact List.nodup_append.mp hnd |>.2.2 k (hq.1 hmd) k h6 rfl
          subst hmd
          refine .inr (.inl ⟨rfl, m, ts, hid, ?_⟩)
          have hl2 : l ++ s.w.log = w'.log := hl
          rw [← hl2] at h7
          rcases List.mem_append.mp h7 with h7 | h7
          · exact h7
          · have := hun _ h7; simp [eAll, mid1] at this
      · simp at h4
        obtain ⟨-, rfl⟩ := h4
        refine .inr (.inr ⟨hsh h6, ?_⟩)
        have hl2 : l ++ s.w.log = w'.log := hl
        rw [← hl2] at h7
        rw [← hid]
        rcases List.mem_append.mp h7 with h7 | h7
        · exact h7
        · have := hun _ h7; simp [eAll, n1] at this
      · exfalso
        replace h2 : w'.ws[k]? = some (.delivered (some wk)) ∨ w'.ws[k]? = some (.closed (some wk)) := h2
        rw [h3] at h2; simp at h2
    | done => exact hresp mid h1 h2
  | reply mid => exact hresp mid h1 h2
  | recv b st =>
    cases st with
    | new => exact h1.elim
    | waiting c =>
      obtain ⟨k, h2⟩ := h2
      rcases execR_cellWoken he (regWs_reachable h) (bqsOk_reachable h) h1 h2 with ⟨m, rfl⟩ | ⟨m, l', h3, h4, h5⟩ | rfl
      · exact .inl ⟨m, _, h2⟩
      · right; left
        have hlive : s.w.mailboxLive b := ⟨_, List.mem_of_getElem? ho, by simp [Obj.holdsMailbox]⟩
        have ha := mailboxLive_alive h hlive
        have hb : b ∈ s.w.bqs.filter s.w.alive := by
          rcases bAll_reachable h b ha with h1 | h1
          · exact List.mem_filter.mpr ⟨h1, ha⟩
          · exact absurd h1 (mailboxLive_rcv h hlive)
        have : l = l' := List.append_cancel_right (hl.trans h3)
        subst this
        exact ⟨m, _, h4, hb, h5 b hb⟩
      · exact .inr (.inr ((iInv_reachable h).ns _ (List.mem_of_getElem? ht) c (by simp)))
  | join j =>
    cases j with
    | none => exact h1.elim
    | some j =>
      rcases execR_lst he with ⟨h5, -⟩ | ⟨-, h5⟩
      · exact hsh h5
      · replace h2 : w'.lst[j]? = some (.notified (some wk)) := h2
        replace h1 : s.w.lst[j]? = some (.waiting (some wk)) := h1
        rw [h5, h1] at h2; simp at h2
  | _ => exact h1.elim

/-! ## Whoever is woken gets on -/

/-- What other threads do does not concern a step of thread `t`: the cells a pending step of `t` owns are changed by nobody else. -/
theorem thread_ind3 {cap : Option Nat} {s1 : Sys} {t : Nat} (hr : Reachable cap s1) (hlt : t < s1.th.length)
    {P : List Act → List Micro → Sys → Prop} (h0 : ∀ x, s1.th[t]? = some x → P [] x s1)
    (other : ∀ as x s2 a s3, s1.run as = some s2 → Reachable cap s2 → P as x s2 → s2.th[t]? = some x → a ≠ .exec t → s2.step a = some s3 →
      P (as ++ [a]) x s3)
    (own : ∀ as m rest s2 s3 ms, s1.run as = some s2 → Reachable cap s2 → P as (m :: rest) s2 → s2.th[t]? = some (m :: rest) →
      ExecR s2.w m s3.w ms → s2.step (.exec t) = some s3 → P (as ++ [.exec t]) (ms ++ rest) s3) :
    ∀ as s2, s1.run as = some s2 → t < s2.th.length ∧ ∀ x, s2.th[t]? = some x → P as x s2 := by
  refine run_ind ⟨hlt, h0⟩ ?_
  intro as s2 a s3 hrun ⟨hl, hp⟩ hs
  have hr2 : Reachable cap s2 := Reachable.run hr hrun
  refine ⟨Nat.lt_of_lt_of_le hl (step_len hs), fun x hx => ?_⟩
  by_cases ha : a = .exec t
  · subst ha
    have hx2 : s2.th[t]? = some s2.th[t] := List.getElem?_eq_getElem hl
    obtain ⟨m, rest, w', ms, he, hx', rfl, hth⟩ := step_ofThread hs hx2
    rw [hx] at hth; simp at hth; subst hth
    have := hp _ hx2
    rw [he] at this hx2
    exact own as m rest s2 s3 ms hrun hr2 this hx2 hx' hs
  · rcases step_thread hs hl with h | heq
    · exact absurd h ha
    · rw [heq] at hx
      exact other as x s2 a s3 hrun hr2 (hp x hx) hx ha hs

/-- Two threads whose first steps count. -/
theorem tot_two {α : Type _} (g : α → Nat) {th : List (List α)} {t t' : Nat} {m m' : α} {r r' : List α} (hne : t ≠ t')
    (h : th[t]? = some (m :: r)) (h' : th[t']? = some (m' :: r')) : g m + g m' ≤ tot g th := by
  have := Xtra.two_le (sumBy g) hne h h'
  simp only [tot, sumBy_cons] at *
  omega

/-- A cell a pending step of thread `t` owns, once it holds a notification, is not changed by other threads. -/
theorem cell_kept {cap : Option Nat} {s s' : Sys} {a : Act} {t c : Nat} {m : Micro} {rest : List Micro} {k : Ctrl} {x : Option Nat}
    (h : Reachable cap s) (ht : s.th[t]? = some (m :: rest)) (hm : mCell c m ≠ 0) (hc : s.w.cells[c]? = some (.full k x)) (ha : a ≠ .exec t)
    (hs : s.step a = some s') : s'.w.cells[c]? = some (.full k x) := by
  rcases step_rel hs with ⟨cl, w', ms, rfl, hcr, rfl⟩ | ⟨t', m', rest', w', ms, rfl, ht', he, rfl⟩
  · have : w'.cells = s.w.cells := by cases hcr <;> simp
    simp only [this]; exact hc
  · rcases execR_cellEvo he (regWs_reachable h) hc with h1 | ⟨_, _, h1, -⟩ | h1
    · exact h1
    · simp at h1
    · have h2 := tot_two (mCell c) (fun e => ha (by rw [e])) ht ht'
      have h3 := (own_reachable h).cell c
      unfold cellL at h3; split at h3 <;> omega

/-- The same for a send that waits for room. -/
theorem ws_kept {cap : Option Nat} {s s' : Sys} {a : Act} {t k : Nat} {m : Micro} {rest : List Micro} {x : WsCell}
    (h : Reachable cap s) (ht : s.th[t]? = some (m :: rest)) (hm : mWs k m ≠ 0) (hc : s.w.ws[k]? = some x) (hx : ∀ wk m, x ≠ .active wk m)
    (ha : a ≠ .exec t) (hs : s.step a = some s') : s'.w.ws[k]? = some x := by
  rcases step_rel hs with ⟨cl, w', ms, rfl, hcr, rfl⟩ | ⟨t', m', rest', w', ms, rfl, ht', he, rfl⟩
  · have : w'.ws = s.w.ws := by cases hcr <;> simp
    simp only [this]; exact hc
  · have key : mWs k m' = 0 := by
      have h2 := tot_two (mWs k) (fun e => ha (by rw [e])) ht ht'
      have h3 := (own_reachable h).ws k
      unfold wsL at h3; split at h3 <;> omega
    rcases execR_evo he (regWs_reachable h) hc with h1 | ⟨_, _, _, _, _, _, h1, -⟩ | ⟨_, _, h1, -⟩ | ⟨_, _, h1, -⟩ | ⟨-, ⟨_, _, _, _, rfl, -⟩ | ⟨rfl, -⟩⟩
    · exact h1
    · exact absurd h1 (hx _ _)
    · exact absurd h1 (hx _ _)
    · exact absurd h1 (hx _ _)
    · simp [mWs, is1] at key
    · simp [mWs, is1] at key

/-- **C71**, all interleavings: a receive that was woken and is polled completes in this poll, whatever else is going on meanwhile, unless it was
woken for a broadcast and at some moment of the poll its mailbox holds no broadcast (which, `C71_reason`, was in it when it was woken, so another
receive on the same mailbox took it). -/
theorem C71_receive_gets_on {cap : Option Nat} {s s1 s2 : Sys} {r b c wk : Nat} {k : Ctrl} {x : Option Nat} {as : List Act}
    (h : Reachable cap s) (ho : s.w.objs[r]? = some (.recv b (.waiting c))) (hk : s.w.cells[c]? = some (.full k x))
    (hc : s.step (.call (.pollRecv r wk)) = some s1) (hrun : s1.run as = some s2) (hdone : s2.th[s.th.length]? = some []) :
    (∃ am later before, s2.w.log = later ++ .recv r b am :: before ∧ s.w.log <:+ before) ∨
    (k = .newBroadcast ∧ ∃ as1 as2 s3, as = as1 ++ as2 ∧ s1.run as1 = some s3 ∧ s3.w.items b = []) := by
  have hr1 : Reachable cap s1 := .step h hc
  obtain ⟨w', ms, hcr, hw, hth⟩ := step_newThread hc
  obtain ⟨hlog, hcells⟩ : s1.w.log = s.w.log ∧ s1.w.cells = s.w.cells := by
    subst hw
    generalize s1.w = w1 at hcr
    cases hcr <;> exact ⟨rfl, rfl⟩
  have hms : ms = [.recvPoll r b c wk] := by
    cases hcr <;> simp_all
  have hlt : s.th.length < s1.th.length := by rw [hth]; simp
  have key := thread_ind3 (t := s.th.length) hr1 hlt
    (P := fun as x' s2 => s.w.log <:+ s2.w.log ∧ ((x' = [.recvPoll r b c wk] ∧ s2.w.cells[c]? = some (.full k x)) ∨
      (k = .newBroadcast ∧ x' = [.recvBcast r b c wk]) ∨
      (x' = [] ∧ ∃ am later before, s2.w.log = later ++ .recv r b am :: before ∧ s.w.log <:+ before) ∨
      (k = .newBroadcast ∧ ∃ as1 as2 s3, as = as1 ++ as2 ∧ s1.run as1 = some s3 ∧ s3.w.items b = [])))
    (fun x hx => by
      rw [hth] at hx; simp at hx; subst hx
      exact ⟨by rw [hlog]; exact List.suffix_rfl, .inl ⟨hms, by rw [hcells]; exact hk⟩⟩)
    (fun as x s2 a s3 _ hr2 hp ht ha hs => by
      obtain ⟨hl, hp⟩ := hp
      refine ⟨hl.trans (step_suffix hr2 hs), ?_⟩
      rcases hp with ⟨rfl, hp⟩ | hp | ⟨hp, am, l, bf, h1, h2⟩ | ⟨h1, as1, as2, s3, rfl, h2⟩
      · exact .inl ⟨rfl, cell_kept hr2 ht (by simp [mCell, is1]) hp ha hs⟩
      · exact .inr (.inl hp)
      · obtain ⟨t, ht⟩ := step_suffix hr2 hs
        exact .inr (.inr (.inl ⟨hp, am, t ++ l, bf, by rw [← ht, h1]; simp, h2⟩))
      · exact .inr (.inr (.inr ⟨h1, as1, as2 ++ [a], s3, by simp, h2⟩)))
    (fun as m rest s2 s3 ms hr hr2 hp ht hx hs => by
      obtain ⟨hl, hp⟩ := hp
      have hsuf := step_suffix hr2 hs
      refine ⟨hl.trans hsuf, ?_⟩
      have rg := regWs_reachable hr2
      rcases hp with ⟨hp, hcell⟩ | ⟨hk, hp⟩ | ⟨hp, -⟩ | ⟨h1, as1, as2, s3, rfl, h2⟩
      · simp only [List.cons.injEq] at hp
        obtain ⟨rfl, rfl⟩ := hp
        generalize hw3 : s3.w = w3 at hx hsuf
        cases hx
        case recvPoll_empty h1 => rw [hcell] at h1; simp at h1
        case recvPoll_one m1 h1 => exact .inr (.inr (.inl ⟨rfl, .one m1, [], _, rfl, hl⟩))
        case recvPoll_shutdown h1 => exact .inr (.inr (.inl ⟨rfl, .shutdown, [], _, rfl, hl⟩))
        case recvPoll_bcast h1 => rw [hcell] at h1; simp at h1; exact .inr (.inl ⟨h1.1, rfl⟩)
        case recvPoll_panic h1 => rw [hcell] at h1; simp at h1
      · simp only [List.cons.injEq] at hp
        obtain ⟨rfl, rfl⟩ := hp
        generalize hw3 : s3.w = w3 at hx hsuf
        cases hx
        case recvBcast_some m1 w1 hp =>
          refine .inr (.inr (.inl ⟨rfl, .all m1, [], w1.log, rfl, ?_⟩))
          rcases popBroadcast_log rg hp with h' | ⟨m', ts, h'⟩ <;> rw [h']
          · exact hl
          · exact hl.trans (List.suffix_cons ..)
        case recvBcast_none hp => exact .inr (.inr (.inr ⟨hk, as, [_], s2, rfl, hr, popBroadcast_none hp⟩))
      · simp at hp
      · exact .inr (.inr (.inr ⟨h1, as1, as2 ++ [.exec s.th.length], s3, by simp, h2⟩)))
    as s2 hrun
  obtain ⟨-, hp⟩ := key.2 _ hdone
  rcases hp with ⟨hp, -⟩ | ⟨-, hp⟩ | ⟨-, hp⟩ | hp
  · simp at hp
  · simp at hp
  · exact .inl hp
  · exact .inr hp

/-- The answers a send future can give. -/
def Ev.answers (f mid : Nat) (e : Ev) : Prop :=
  e = .sendOk f mid ∨ e = .sendErr f mid ∨ (∃ v, e = .replyOk f mid v) ∨ e = .replyInt f mid

/-- **C71**, all interleavings: a send future that was woken and is polled resolves in this poll, whatever else is going on meanwhile, unless it was
woken because its message found room, it is to return the answer of the handler, and there is none yet: then it has left the first stage and
from now on awaits the answer. -/
theorem C71_send_gets_on {cap : Option Nat} {s s1 s2 : Sys} {f mid wk wk0 : Nat} {md : Mode} {st : Sending} {as : List Act}
    (h : Reachable cap s) (ho : s.w.objs[f]? = some (.send md mid st)) (hk : s.w.wokenUp wk0 (.send md mid st))
    (hc : s.step (.call (.pollSend f wk)) = some s1) (hrun : s1.run as = some s2) (hdone : s2.th[s.th.length]? = some []) :
    ∃ e later before, s2.w.log = later ++ e :: before ∧ s.w.log <:+ before ∧
      (e.answers f mid ∨ (e = .sendPending f mid wk ∧ md = .ret ∧ ∃ k, st = .waiting k ∧ s.w.ws[k]? = some (.delivered (some wk0)))) := by
  have hr1 : Reachable cap s1 := .step h hc
  obtain ⟨w', ms, hcr, hw, hth⟩ := step_newThread hc
  obtain ⟨hlog, hws⟩ : s1.w.log = s.w.log ∧ s1.w.ws = s.w.ws := by
    subst hw
    generalize s1.w = w1 at hcr
    cases hcr <;> exact ⟨rfl, rfl⟩
  have hlt : s.th.length < s1.th.length := by rw [hth]; simp
  have key := thread_ind3 (t := s.th.length) hr1 hlt
    (P := fun as x s2 => s.w.log <:+ s2.w.log ∧
      ((∃ k, st = .waiting k ∧ x = [.pollWs f md mid k wk] ∧ s2.w.ws[k]? = s.w.ws[k]?) ∨
      (x = [.sendFin f md mid wk] ∧ ((∃ v, .handled mid v ∈ s2.w.log) ∨ destroyed mid s2.w.log ∨
        ∃ k, st = .waiting k ∧ s.w.ws[k]? = some (.delivered (some wk0)))) ∨
      (x = [] ∧ ∃ e later before, s2.w.log = later ++ e :: before ∧ s.w.log <:+ before ∧
        (e.answers f mid ∨ (e = .sendPending f mid wk ∧ md = .ret ∧ ∃ k, st = .waiting k ∧ s.w.ws[k]? = some (.delivered (some wk0)))))))
    (fun x hx => by
      rw [hth] at hx; simp at hx; subst hx
      refine ⟨by rw [hlog]; exact List.suffix_rfl, ?_⟩
      cases st with
      | new => exact hk.elim
      | waiting k => exact .inl ⟨k, rfl, by cases hcr <;> simp_all, by rw [hws]⟩
      | done =>
        refine .inr (.inl ⟨by cases hcr <;> simp_all, ?_⟩)
        have hR := resp_reachable h mid
        rcases hk with ⟨v, hk⟩ | hk <;> rw [hk] at hR
        · exact .inl ⟨v, by rw [hlog]; exact hR⟩
        · exact .inr (.inl (by rw [hlog]; exact hR)))
    (fun as x s2 a s3 _ hr2 hp ht ha hs => by
      obtain ⟨hl, hp⟩ := hp
      have hsuf := step_suffix hr2 hs
      refine ⟨hl.trans hsuf, ?_⟩
      rcases hp with ⟨k, h1, rfl, h2⟩ | ⟨hp, h1⟩ | ⟨hp, e, l, bf, h1, h2, h3⟩
      · refine .inl ⟨k, h1, rfl, ?_⟩
        subst h1
        have : ∃ y, s.w.ws[k]? = some y ∧ ∀ wk m, y ≠ .active wk m := by
          rcases hk with hk | hk
          · exact ⟨_, hk, by simp⟩
          · exact ⟨_, hk, by simp⟩
        obtain ⟨y, h3, h4⟩ := this
        rw [h3] at h2 ⊢
        exact ws_kept hr2 ht (by simp [mWs, is1]) h2 h4 ha hs
      · refine .inr (.inl ⟨hp, ?_⟩)
        rcases h1 with ⟨v, h1⟩ | h1 | h1
        · exact .inl ⟨v, hsuf.subset h1⟩
        · refine .inr (.inl ?_)
          rcases h1 with h1 | h1 | h1
          · exact .inl (hsuf.subset h1)
          · exact .inr (.inl (hsuf.subset h1))
          · exact .inr (.inr (hsuf.subset h1))
        · exact .inr (.inr h1)
      · obtain ⟨t, ht⟩ := hsuf
        exact .inr (.inr ⟨hp, e, t ++ l, bf, by rw [← ht, h1]; simp, h2, h3⟩))
    (fun as m rest s2 s3 ms hr hr2 hp ht hx hs => by
      obtain ⟨hl, hp⟩ := hp
      have hsuf := step_suffix hr2 hs
      have np := C31_no_panic (hr2.step hs)
      refine ⟨hl.trans hsuf, ?_⟩
      rcases hp with ⟨k, h1, hp, h2⟩ | ⟨hp, h1⟩ | ⟨hp, -⟩
      · subst h1
        simp only [List.cons.injEq] at hp
        obtain ⟨rfl, rfl⟩ := hp
        replace hk : s.w.ws[k]? = some (.delivered (some wk0)) ∨ s.w.ws[k]? = some (.closed (some wk0)) := hk
        rw [← h2] at hk
        generalize hw3 : s3.w = w3 at hx hsuf np
        cases hx
        case pollWs_active h3 => rw [h3] at hk; simp at hk
        case pollWs_delivered h3 =>
          refine .inr (.inl ⟨rfl, .inr (.inr ⟨k, rfl, ?_⟩)⟩)
          rw [← h2]; rw [h3] at hk ⊢; simp at hk ⊢; exact hk
        case pollWs_closed h3 => exact .inr (.inr ⟨rfl, _, [], _, rfl, hl, .inl (.inr (.inl rfl))⟩)
        case pollWs_panic => exact absurd (by simp [World.ev]) np
      · simp only [List.cons.injEq] at hp
        obtain ⟨rfl, rfl⟩ := hp
        have hR := resp_reachable hr2 mid
        generalize hw3 : s3.w = w3 at hx hsuf np
        cases hx
        case sendFin_bcast => exact .inr (.inr ⟨rfl, _, [], _, rfl, hl, .inl (.inl rfl)⟩)
        case sendFin_detached => exact .inr (.inr ⟨rfl, _, [], _, rfl, hl, .inl (.inl rfl)⟩)
        case sendFin_waiting h3 =>
          rw [h3] at hR
          rcases h1 with ⟨v, h1⟩ | h1 | h1
          · exact absurd h1 (hR.2 v)
          · exact absurd h1 hR.1
          · exact .inr (.inr ⟨rfl, _, [], _, rfl, hl, .inr ⟨rfl, rfl, h1⟩⟩)
        case sendFin_value v _ => exact .inr (.inr ⟨rfl, _, [], _, rfl, hl, .inl (.inr (.inr (.inl ⟨v, rfl⟩)))⟩)
        case sendFin_interrupted => exact .inr (.inr ⟨rfl, _, [], _, rfl, hl, .inl (.inr (.inr (.inr rfl)))⟩)
        case sendFin_panic => exact absurd (by simp [World.ev]) np
      · simp at hp)
    as s2 hrun
  obtain ⟨-, hp⟩ := key.2 _ hdone
  rcases hp with ⟨_, -, hp, -⟩ | ⟨hp, -⟩ | ⟨-, hp⟩
  · simp at hp
  · simp at hp
  · exact hp

/-- A listener that was notified remains so. -/
theorem notified_step {s s' : Sys} {a : Act} {l : Nat} (hs : s.step a = some s') (h : ∃ x, s.w.lst[l]? = some (.notified x)) :
    ∃ x, s'.w.lst[l]? = some (.notified x) := by
  obtain ⟨x, h⟩ := h
  have hl := (List.getElem?_eq_some_iff.mp h).1
  rcases step_rel hs with ⟨c, w', ms, rfl, hc, rfl⟩ | ⟨t, m, rest, w', ms, rfl, ht, he, rfl⟩
  · refine ⟨x, ?_⟩
    show w'.lst[l]? = _
    cases hc
    case pollJoin_waiting j wk k wk' h1 h2 =>
      show (s.w.lst.set k _)[l]? = _
      by_cases e : k = l
      · subst e; rw [h] at h2; simp at h2
      · rw [List.getElem?_set_ne e]; exact h
    all_goals first
      | exact h
      | exact (List.getElem?_append_left hl).trans h
      | (simp; exact h)
  · rcases execR_lst he with ⟨-, h1⟩ | ⟨-, h1⟩ <;> simp only [h1]
    · exact ⟨x, by simp [h, LCell.notify]⟩
    · exact ⟨x, h⟩

/-- **C71.** Whoever awaits the answer to a detached request and was woken has the answer at the next poll, and a join handle that was woken is
ready at the next poll, however much later that is. -/
theorem C71_answer_is_there {cap : Option Nat} {s s1 s2 : Sys} {f wk wk0 : Nat} {o : Obj} {as : List Act} (h : Reachable cap s)
    (ho : s.w.objs[f]? = some o) (hk : s.w.wokenUp wk0 o) (hrun : s.run as = some s1) (ho1 : s1.w.objs[f]? = some o) :
    (∀ mid, o = .reply mid → s1.step (.call (.pollReply f wk)) = some s2 →
      (∃ v, s2.w.log = .replyOk f mid v :: s1.w.log) ∨ s2.w.log = .replyInt f mid :: s1.w.log) ∧
    (∀ l, o = .join l → s1.step (.call (.pollJoin f wk)) = some s2 → s2.w.log = .joined f :: s1.w.log) := by
  have hr1 : Reachable cap s1 := Reachable.run h hrun
  have hsuf : s.w.log <:+ s1.w.log := (run_suffix h hrun).1
  refine ⟨fun mid e hs => ?_, fun l e hs => ?_⟩
  · subst e
    have hR := resp_reachable h mid
    have hR1 := resp_reachable hr1 mid
    have h1 : (∃ v, Ev.handled mid v ∈ s1.w.log) ∨ destroyed mid s1.w.log := by
      rcases hk with ⟨v, hk⟩ | hk <;> rw [hk] at hR
      · exact .inl ⟨v, hsuf.subset hR⟩
      · right
        rcases hR with h1 | h1 | h1
        · exact .inl (hsuf.subset h1)
        · exact .inr (.inl (hsuf.subset h1))
        · exact .inr (.inr (hsuf.subset h1))
    have np := C31_no_panic (hr1.step hs)
    obtain ⟨w', ms, hcr, rfl, hth⟩ := step_newThread hs
    generalize s2.w = w2 at hcr np
    cases hcr
    case pollReply_waiting mid' wk' h2 ho2 =>
      rw [ho1] at ho2; simp at ho2; subst ho2
      rw [h2] at hR1
      rcases h1 with ⟨v, h1⟩ | h1
      · exact absurd h1 (hR1.2 v)
      · exact absurd h1 hR1.1
    case pollReply_value mid' wk' v h2 ho2 => rw [ho1] at ho2; simp at ho2; subst ho2; exact .inl ⟨v, rfl⟩
    case pollReply_interrupted mid' wk' h2 ho2 => rw [ho1] at ho2; simp at ho2; subst ho2; exact .inr rfl
    case pollReply_panic => exact absurd (by simp [World.ev]) np
  · subst e
    cases l with
    | none => exact hk.elim
    | some l =>
      have h1 : ∃ x, s1.w.lst[l]? = some (.notified x) :=
        run_ind (P := fun _ s1 => ∃ x, s1.w.lst[l]? = some (.notified x)) ⟨_, hk⟩ (fun _ _ _ _ _ hp hs => notified_step hs hp) as s1 hrun
      obtain ⟨x, h1⟩ := h1
      obtain ⟨w', ms, hcr, rfl, hth⟩ := step_newThread hs
      generalize s2.w = w2 at hcr
      cases hcr
      case pollJoin_none ho2 => rw [ho1] at ho2; simp at ho2
      case pollJoin_waiting h2 ho2 => rw [ho1] at ho2; simp at ho2; subst ho2; rw [h1] at h2; simp at h2
      case pollJoin_notified => rfl
      case pollJoin_panic h2 ho2 => rw [ho1] at ho2; simp at ho2; subst ho2; rw [h1] at h2; simp at h2

/-! ## Examples -/

/-- An actor waits; a request is about to be put into the mailbox. -/
def wokenSched : List Act := [.call (.next 1), .call (.pollRecv 2 5), .exec 1, .exec 1, .call (.send 0), .call (.pollSend 3 9), .exec 3, .exec 3]

/-- Two receives wait; a broadcast is about to be put into the mailbox. -/
def wokenAllSched : List Act := [.call (.next 1), .call (.pollRecv 2 5), .exec 1, .exec 1, .call (.next 1), .call (.pollRecv 3 6), .exec 3, .exec 3,
  .call (.broadcast 0), .call (.pollSend 4 9), .exec 5, .exec 5]

/-- `C71_reason`: the send wakes the receive. -/
example : ∃ s s', Reachable none s ∧ s.step (.exec 3) = some s' ∧ s.wakes s' 2 :=
  ⟨_, _, Reachable.run .init (as := wokenSched) rfl, rfl, ⟨_, 5, rfl, rfl, ⟨_, rfl⟩⟩⟩

/-- `C71_one_at_a_time`: a broadcast wakes both receives, and nothing but a broadcast (or the end) can. -/
example : ∃ s s', Reachable none s ∧ s.step (.exec 5) = some s' ∧ s.wakes s' 2 ∧ s.wakes s' 3 :=
  ⟨_, _, Reachable.run .init (as := wokenAllSched) rfl, rfl, ⟨_, 5, rfl, rfl, ⟨_, rfl⟩⟩, ⟨_, 6, rfl, rfl, ⟨_, rfl⟩⟩⟩

/-- `C71_receive_gets_on`: the receive woken by a send, polled while the sender's poll continues; and both exits for a broadcast. -/
example : ∃ s s1 s2 x, Reachable none s ∧ s.w.objs[2]? = some (.recv 0 (.waiting 0)) ∧ s.w.cells[0]? = some (.full (.newMessage ⟨0, .valued 0⟩) x) ∧
    s.step (.call (.pollRecv 2 7)) = some s1 ∧ s1.run [.exec 3, .exec 4, .exec 3] = some s2 ∧ s2.th[s.th.length]? = some [] :=
  ⟨_, _, _, _, Reachable.run .init (as := wokenSched ++ [.exec 3]) rfl, rfl, rfl, rfl, rfl, rfl⟩

example : ∃ s s1 s2 x, Reachable none s ∧ s.w.objs[3]? = some (.recv 0 (.waiting 1)) ∧ s.w.cells[1]? = some (.full .newBroadcast x) ∧
    s.step (.call (.pollRecv 3 7)) = some s1 ∧ s1.run [.exec 6, .call (.pollRecv 2 8), .exec 7, .exec 7, .exec 6, .exec 6, .exec 6] = some s2 ∧
    s2.th[s.th.length]? = some [] ∧ s2.w.log.head? = some (.recvPending 3 7) :=
  ⟨_, _, _, _, Reachable.run .init (as := wokenAllSched ++ [.exec 5]) rfl, rfl, rfl, rfl, rfl, rfl, rfl⟩

/-- `C71_send_gets_on`: in a channel with room for one message the second send waits; a receive lets it in and wakes it; then it awaits the
answer. -/
example : ∃ s s1 s2, Reachable (some 1) s ∧ s.w.objs[3]? = some (.send .ret 1 (.waiting 0)) ∧ s.w.wokenUp 9 (.send .ret 1 (.waiting 0)) ∧
    s.step (.call (.pollSend 3 4)) = some s1 ∧ s1.run [.call (.next 1), .exec 6, .exec 6] = some s2 ∧ s2.th[s.th.length]? = some [] ∧
    s2.w.log.head? = some (.sendPending 3 1 4) :=
  ⟨_, _, _, Reachable.run .init (as := [.call (.send 0), .call (.send 0), .call (.pollSend 2 8), .exec 2, .exec 2, .exec 2, .exec 2, .exec 2,
    .call (.pollSend 3 9), .exec 3, .exec 3, .exec 3, .exec 3, .exec 3, .call (.next 1), .call (.pollRecv 4 0), .exec 5]) rfl, rfl, .inl rfl, rfl, rfl,
    rfl, rfl⟩

/-- `C71_answer_is_there`: a join handle woken by the drop of the only mailbox. -/
example : ∃ s s1 s2, Reachable none s ∧ s.w.objs[2]? = some (.join (some 0)) ∧ s.w.wokenUp 5 (.join (some 0)) ∧ s.run [.call (.send 0)] = some s1 ∧
    s1.w.objs[2]? = some (.join (some 0)) ∧ s1.step (.call (.pollJoin 2 6)) = some s2 :=
  ⟨_, _, _, Reachable.run .init (as := [.call (.join 0), .exec 0, .exec 0, .call (.pollJoin 2 5), .call (.dropMailbox 1), .exec 2, .exec 2]) rfl, rfl, rfl,
    rfl, rfl, rfl⟩

end Xtra
