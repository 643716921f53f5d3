import Verif.Causal
/-! # C73: whoever learns something through the channel also sees what led to it -/

set_option linter.unusedSimpArgs false
set_option linter.unusedVariables false

namespace Xtra

theorem Know.le.refl (a : Know) : a.le a := fun _ h => h
theorem Know.le.trans {a b c : Know} (h : a.le b) (h' : b.le c) : a.le c := fun x hx => h' x (h x hx)

/-- Who has been told that one side is gone knows what those knew who dropped it. -/
structure KnInv (x : KSys) : Prop where
  mtx : ∀ i, (x.k.sent i).le (x.k.loc .mutex)
  cell : ∀ c m wk, x.s.w.cells[c]? = some (.full (.newMessage m) wk) → (x.k.sent m.id).le (x.k.loc (.cell c))
  ans : ∀ i, (x.k.answered i).le (x.k.loc (.reply i))
  fin : ∀ i, (x.k.ended i).le (x.k.loc (.reply i))
  sndr : x.k.dropS.le (x.k.loc .senders)
  rcvr : x.k.dropR.le (x.k.loc .receivers)
  shutRx : ∀ (t : Nat) ms, x.s.th[t]? = some ms → (.shutRx ∈ ms ∨ ∃ c, .notifyShut c ∈ ms) → x.s.w.sc = 0 ∧ x.k.dropS.le (x.k.th t)
  cellShut : ∀ c wk, x.s.w.cells[c]? = some (.full .shutdown wk) → x.s.w.sc = 0 ∧ x.k.dropS.le (x.k.loc (.cell c))
  shutTx : ∀ (t : Nat) ms, x.s.th[t]? = some ms → .shutTx ∈ ms → x.s.w.rcv = 0 ∧ x.k.dropR.le (x.k.th t)
  closed : ∀ h wk, x.s.w.ws[h]? = some (.closed wk) → x.s.w.rcv = 0 ∧ x.k.dropR.le (x.k.loc (.ws h))
  notified : ∀ l wk, x.s.w.lst[l]? = some (.notified wk) → x.s.w.rcv = 0 ∧ x.k.dropR.le (x.k.loc (.event l))
  join : ∀ j, x.s.w.objs[j]? = some (.join none) →
    (x.s.w.rcv = 0 ∧ x.k.dropR.le (x.k.loc (.obj j))) ∨ (x.s.w.sc = 0 ∧ x.k.dropS.le (x.k.loc (.obj j)))

theorem execR_joinNone {w w' : World} {m : Micro} {ms : List Micro} (h : ExecR w m w' ms) {f : Nat} (ho : w'.objs[f]? = some (.join none)) :
    w.objs[f]? = some (.join none) ∨ (w.rcv = 0 ∧ ∃ l, m = .join1 f l) ∨ (w.sc = 0 ∧ ∃ l, m = .join2 f l) := by
  cases h
  case recv_all hp _ _ =>
    simp [World.popBroadcast_objs hp] at ho
    rcases set_cases ho with ⟨_, h⟩ | h <;> simp_all
  case recv_one hp _ _ =>
    simp [World.popUnicast_objs hp] at ho
    rcases set_cases ho with ⟨_, h⟩ | h <;> simp_all
  case recvBcast_some hp =>
    simp [World.popBroadcast_objs hp] at ho
    rcases set_cases ho with ⟨_, h⟩ | h <;> simp_all
  case join1_no h1 =>
    simp at ho
    rcases set_cases ho with ⟨rfl, h⟩ | h
    · exact .inr (.inl ⟨h1, _, rfl⟩)
    · exact .inl h.2
  case join2_no h1 =>
    simp at ho
    rcases set_cases ho with ⟨rfl, h⟩ | h
    · exact .inr (.inr ⟨h1, _, rfl⟩)
    · exact .inl h.2
  all_goals first
    | exact .inl ho
    | (simp at ho; exact .inl ho)
    | (simp at ho; rcases set_cases ho with ⟨h1, h⟩ | h
       · grind
       · exact .inl h.2)

theorem callR_joinNone {w w' : World} {c : Call} {ms : List Micro} (h : CallR w c w' ms) {j : Nat} (ho : w'.objs[j]? = some (.join none)) :
    w.objs[j]? = some (.join none) ∨ ∃ l wk wk', w.objs[j]? = some (.join (some l)) ∧ w.lst[l]? = some (.notified wk) ∧ c = .pollJoin j wk' := by
  cases h
  case pollJoin_notified j' wk' l wk h1 h2 =>
    simp at ho
    rcases set_cases ho with ⟨rfl, h⟩ | h
    · exact .inr ⟨_, _, _, h1, h2, rfl⟩
    · exact .inl h.2
  all_goals first
    | exact .inl ho
    | (simp at ho; exact .inl ho)
    | (simp at ho; rcases set_cases ho with ⟨h1, h⟩ | h
       · grind
       · exact .inl h.2)
    | (simp at ho; rcases append_cases ho with h | h
       · exact .inl h.2
       · grind)
    | (simp at ho; grind)

theorem callR_cells_ws {w w' : World} {c : Call} {ms : List Micro} (h : CallR w c w' ms) : w'.cells = w.cells ∧ w'.ws = w.ws := by
  cases h <;> simp [World.addTx] <;> (try split) <;> simp

theorem callR_notified {w w' : World} {c : Call} {ms : List Micro} (h : CallR w c w' ms) {l : Nat} {wk : Option Nat}
    (hl : w'.lst[l]? = some (.notified wk)) : w.lst[l]? = some (.notified wk) := by
  cases h
  case join => rcases append_cases hl with h | h
               · exact h.2
               · simp at h
  case joinStale => rcases append_cases hl with h | h
                    · exact h.2
                    · simp at h
  case pollJoin_waiting => 
    simp at hl
    rcases set_cases hl with ⟨rfl, h⟩ | h
    · simp at h
    · exact h.2
  case cloneAddr => simpa using hl
  case asEither => simpa using hl
  all_goals simpa using hl

theorem no_strong_drop {cap : Option Nat} {s : Sys} (h : Reachable cap s) {t : Nat} {m : Micro} {rest : List Micro} (ht : s.th[t]? = some (m :: rest))
    (h0 : s.w.sc = 0) {rc : Rc} (hm : m = .dropTx rc) : rc.isStrong = false := by
  subst hm
  have h1 := sc_reachable h
  have h2 := tot_head mStrong ht
  cases hr : rc.isStrong with
  | false => rfl
  | true => simp [mStrong, Rc.cnt_strong hr] at h2; omega

theorem no_rcv_drop {cap : Option Nat} {s : Sys} (h : Reachable cap s) {t : Nat} {m : Micro} {rest : List Micro} (ht : s.th[t]? = some (m :: rest))
    (h0 : s.w.rcv = 0) : m ≠ .dropRx := by
  rintro rfl
  have h1 := rcv_reachable h
  have h2 := tot_head mRcv ht
  simp [mRcv] at h2; omega

theorem knInv_step {cap : Option Nat} {x x' : KSys} {t : Nat} (hx : KReach cap x) (hi : KnInv x) (hs : KStep x t x') : KnInv x' := by
  have hr := hx.reachable
  cases hs with
  | @call c s' ka hs =>
    rcases step_rel hs with ⟨c', w', ms, hc', hc, rfl⟩ | ⟨t, m1, rest, w', ms, hc', ht, he, rfl⟩
    · obtain rfl : c = c' := by simpa using hc'
      obtain ⟨e1, e2⟩ := callR_cells_ws hc
      have hloc : ∀ l, (x.k.loc l).le ((x.k.call x.s.w x.s.th.length c ka).loc l) := fun l f hf => .inl hf
      have hsc := sc_zero_call hr hc
      have hrc := rcv_zero_call hr hc
      have hth : ∀ (u : Nat) us, (x.s.th ++ [ms])[u]? = some us → (x.s.th[u]? = some us ∧ u ≠ x.s.th.length) ∨ us = ms := by
        intro u us hu
        rcases append_cases hu with h | h
        · exact .inl ⟨h.2, by omega⟩
        · exact .inr (by simpa using h.2)
      have hns := callR_noShut hc
      refine ⟨fun i => (hi.mtx i).trans (hloc _), ?_, fun i => (hi.ans i).trans (hloc _), fun i => (hi.fin i).trans (hloc _), hi.sndr.trans (hloc _),
        hi.rcvr.trans (hloc _), ?_, ?_, ?_, ?_, ?_, ?_⟩
      · intro c m wk h; simp only [e1] at h; exact (hi.cell _ _ _ h).trans (hloc _)
      · intro u us hu hm
        rcases hth u us hu with ⟨h1, h2⟩ | rfl
        · obtain ⟨h3, h4⟩ := hi.shutRx _ _ h1 hm
          refine ⟨hsc h3, h4.trans ?_⟩
          intro f hf; simp only [Kn.call, if_neg h2]; exact hf
        · exfalso
          rcases hm with hm | ⟨c, hm⟩
          · have := (sumBy_pos _).mpr ⟨_, hm, (by simp [mShutRx] : 0 < mShutRx .shutRx)⟩; omega
          · cases hc <;> simp at hm
      · intro c wk h; simp only [e1] at h; exact ⟨hsc (hi.cellShut _ _ h).1, (hi.cellShut _ _ h).2.trans (hloc _)⟩
      · intro u us hu hm
        rcases hth u us hu with ⟨h1, h2⟩ | rfl
        · obtain ⟨h3, h4⟩ := hi.shutTx _ _ h1 hm
          refine ⟨hrc h3, h4.trans ?_⟩
          intro f hf; simp only [Kn.call, if_neg h2]; exact hf
        · exfalso
          have := (sumBy_pos _).mpr ⟨_, hm, (by simp [mShutTx] : 0 < mShutTx .shutTx)⟩; omega
      · intro h wk hh; simp only [e2] at hh; exact ⟨hrc (hi.closed _ _ hh).1, (hi.closed _ _ hh).2.trans (hloc _)⟩
      · intro l wk hl
        have hl := callR_notified hc hl
        exact ⟨hrc (hi.notified _ _ hl).1, (hi.notified _ _ hl).2.trans (hloc _)⟩
      · intro j hj
        rcases callR_joinNone hc hj with h | ⟨l, wk, wk', h1, h2, rfl⟩
        · rcases hi.join _ h with ⟨h1, h2⟩ | ⟨h1, h2⟩
          · exact .inl ⟨hrc h1, h2.trans (hloc _)⟩
          · exact .inr ⟨hsc h1, h2.trans (hloc _)⟩
        · obtain ⟨h3, h4⟩ := hi.notified _ _ h2
          refine .inl ⟨hrc h3, fun f hf => .inr ⟨rfl, .inr ⟨.event l, by simp [Call.acq, h1], h4 f hf⟩⟩⟩
    · simp at hc'
  | @exec _ m rest s' ht hs =>
    rcases step_rel hs with ⟨c', w', ms, hc', hc, rfl⟩ | ⟨t', m1, rest1, w', ms, hc', ht', he, rfl⟩
    · simp at hc'
    obtain rfl : t = t' := by simpa using hc'
    rw [ht] at ht'
    obtain ⟨rfl, rfl⟩ : m = m1 ∧ rest = rest1 := by simpa using ht'
    have r := regWs_reachable hr
    have hloc : ∀ l, (x.k.loc l).le ((x.k.exec x.s.w w' t m).loc l) := fun l f hf => .inl hf
    have haf : (x.k.th t).le (x.k.after (m.acq x.s.w) t) := fun f hf => .inl hf
    have hthm : ∀ u, (x.k.th u).le ((x.k.exec x.s.w w' t m).th u) := by
      intro u f hf
      simp only [Kn.exec]
      split
      · rename_i e; subst e; exact haf f hf
      · exact hf
    have hthis : ∀ f, x.k.after (m.acq x.s.w) t f → (x.k.exec x.s.w w' t m).th t f := by intro f hf; simp only [Kn.exec, if_true]; exact hf
    have hsc := execR_sc_zero he
    have hrc := execR_rcv_zero he
    -- no strong reference is left: nobody drops one
    have hS : x.s.w.sc = 0 → ∀ {K : Know}, x.k.dropS.le K → (x.k.exec x.s.w w' t m).dropS.le K := by
      intro h0 K hK f hf
      rcases hf with hf | ⟨⟨rc, h1, h2⟩, -⟩
      · exact hK f hf
      · rw [no_strong_drop hr ht h0 h1] at h2; cases h2
    have hR : x.s.w.rcv = 0 → ∀ {K : Know}, x.k.dropR.le K → (x.k.exec x.s.w w' t m).dropR.le K := by
      intro h0 K hK f hf
      rcases hf with hf | ⟨h1, -⟩
      · exact hK f hf
      · exact absurd h1 (no_rcv_drop hr ht h0)
    have hth : ∀ (u : Nat) us, (x.s.th.set t (ms ++ rest))[u]? = some us → (u = t ∧ us = ms ++ rest) ∨ x.s.th[u]? = some us := by
      intro u us hu
      rcases set_cases hu with ⟨rfl, h⟩ | h
      · exact .inl ⟨rfl, by simpa using h⟩
      · exact .inr h.2
    refine ⟨?_, ?_, ?_, ?_, ?_, ?_, ?_, ?_, ?_, ?_, ?_, ?_⟩
    · intro i f hf
      rcases hf with hf | ⟨h1, h2⟩
      · exact .inl (hi.mtx i f hf)
      · refine .inr ⟨?_, haf f h2⟩
        cases m <;> simp [Micro.puts] at h1 <;> rfl
    · intro c mg wk hc f hf
      have hold : ∀ wk, x.s.w.cells[c]? = some (.full (.newMessage mg) wk) → x.k.sent mg.id f := by
        intro wk hc
        rcases hf with hf | ⟨h1, -⟩
        · exact hf
        · exfalso
          have h2 := held_reachable hr mg.id
          have h3 := le_sumBy (cellW mg.id) hc
          have h4 := tot_head (mAll mg.id) ht
          simp only [World.held] at h2
          simp [cellW, ctrlW, mid1] at h3
          cases m <;> simp [Micro.puts] at h1
          · simp [mAll, mid1, h1] at h4
            simp only [created] at h2
            split at h2 <;> omega
          · simp only [created] at h2
            rw [if_neg (by omega)] at h2
            omega
      rcases execR_fullBy he r hc with h1 | ⟨h1, ⟨m', h2, h3⟩ | ⟨h2, -⟩ | h2⟩
      · exact .inl (hi.cell _ _ _ h1 f (hold _ h1))
      · refine .inr ⟨⟨h1, _, _, hc⟩, ?_⟩
        rcases hf with hf | ⟨-, hf⟩
        · right
          refine ⟨.mutex, ?_, hi.mtx _ f hf⟩
          cases m <;> simp [Micro.locked] at h3 <;> simp [Micro.acq]
          split <;> simp
        · exact .inl hf
      · simp at h2
      · simp at h2
    · intro i f hf
      rcases hf with hf | ⟨h1, h2⟩
      · exact .inl (hi.ans i f hf)
      · exact .inr ⟨.inl h1, haf f h2⟩
    · intro i f hf
      rcases hf with hf | ⟨h1, h2⟩
      · exact .inl (hi.fin i f hf)
      · exact .inr ⟨.inr h1, haf f h2⟩
    · intro f hf
      rcases hf with hf | ⟨h1, h2⟩
      · exact .inl (hi.sndr f hf)
      · exact .inr ⟨h1, haf f h2⟩
    · intro f hf
      rcases hf with hf | ⟨h1, h2⟩
      · exact .inl (hi.rcvr f hf)
      · exact .inr ⟨h1, haf f h2⟩
    · intro u us hu hm
      have old : ∀ us', x.s.th[u]? = some us' → (.shutRx ∈ us' ∨ ∃ c, .notifyShut c ∈ us') →
          w'.sc = 0 ∧ (x.k.exec x.s.w w' t m).dropS.le ((x.k.exec x.s.w w' t m).th u) := by
        intro us' h1 h2
        obtain ⟨h3, h4⟩ := hi.shutRx _ _ h1 h2
        exact ⟨hsc h3, hS h3 (h4.trans (hthm u))⟩
      rcases hth u us hu with ⟨rfl, rfl⟩ | h1
      · have hm' : (.shutRx ∈ ms ∨ ∃ c, .notifyShut c ∈ ms) ∨ (.shutRx ∈ rest ∨ ∃ c, .notifyShut c ∈ rest) := by
          rcases hm with hm | ⟨c, hm⟩ <;> rcases List.mem_append.mp hm with hm | hm
          · exact .inl (.inl hm)
          · exact .inr (.inl hm)
          · exact .inl (.inr ⟨c, hm⟩)
          · exact .inr (.inr ⟨c, hm⟩)
        rcases hm' with (hm | ⟨c, hm⟩) | hm
        · cases he
          case dropTx_last rc hA hB =>
            have h2 : x.s.w.sc = 1 := by assumption
            refine ⟨by simp [h2], fun f hf => hthis f ?_⟩
            rcases hf with hf | ⟨-, hf⟩
            · exact .inr ⟨.senders, by simp [Micro.acq, *], hi.sndr f hf⟩
            · exact .inl hf
          all_goals simp at hm
        · have := execR_ns he hm
          subst this
          exact old _ ht (.inl (List.mem_cons_self ..))
        · refine old _ ht ?_
          rcases hm with hm | ⟨c, hm⟩
          · exact .inl (List.mem_cons_of_mem _ hm)
          · exact .inr ⟨c, List.mem_cons_of_mem _ hm⟩
      · exact old _ h1 hm
    · intro c wk hc
      rcases execR_fullBy he r hc with h1 | ⟨h1, ⟨m', h2, h3⟩ | ⟨h2, rfl⟩ | h2⟩
      · obtain ⟨h3, h4⟩ := hi.cellShut _ _ h1
        exact ⟨hsc h3, hS h3 (h4.trans (hloc _))⟩
      · simp at h2
      · obtain ⟨h3, h4⟩ := hi.shutRx _ _ ht (.inr ⟨c, List.mem_cons_self ..⟩)
        exact ⟨hsc h3, hS h3 fun f hf => .inr ⟨⟨h1, _, _, hc⟩, .inl (h4 f hf)⟩⟩
      · simp at h2
    · intro u us hu hm
      have old : ∀ us', x.s.th[u]? = some us' → .shutTx ∈ us' →
          w'.rcv = 0 ∧ (x.k.exec x.s.w w' t m).dropR.le ((x.k.exec x.s.w w' t m).th u) := by
        intro us' h1 h2
        obtain ⟨h3, h4⟩ := hi.shutTx _ _ h1 h2
        exact ⟨hrc h3, hR h3 (h4.trans (hthm u))⟩
      rcases hth u us hu with ⟨rfl, rfl⟩ | h1
      · rcases List.mem_append.mp hm with hm | hm
        · cases he
          case dropRx_last =>
            have h2 : x.s.w.rcv = 1 := by assumption
            refine ⟨by simp [h2], fun f hf => hthis f ?_⟩
            rcases hf with hf | ⟨-, hf⟩
            · exact .inr ⟨.receivers, by simp [Micro.acq, h2], hi.rcvr f hf⟩
            · exact .inl hf
          all_goals simp at hm
        · exact old _ ht (List.mem_cons_of_mem _ hm)
      · exact old _ h1 hm
    · intro h wk hh
      rcases execR_closed he r hh with h1 | ⟨rfl, h1⟩
      · obtain ⟨h3, h4⟩ := hi.closed _ _ h1
        exact ⟨hrc h3, hR h3 (h4.trans (hloc _))⟩
      · obtain ⟨h3, h4⟩ := hi.shutTx _ _ ht (List.mem_cons_self ..)
        exact ⟨hrc h3, hR h3 fun f hf => .inr ⟨⟨h1, _, .inr hh⟩, .inl (h4 f hf)⟩⟩
    · intro l wk hl
      have old : x.s.w.lst[l]? = some (.notified wk) → w'.rcv = 0 ∧ (x.k.exec x.s.w w' t m).dropR.le ((x.k.exec x.s.w w' t m).loc (.event l)) := by
        intro h1
        obtain ⟨h3, h4⟩ := hi.notified _ _ h1
        exact ⟨hrc h3, hR h3 (h4.trans (hloc _))⟩
      rcases execR_lst he with ⟨rfl, h1⟩ | ⟨-, h1⟩
      · have hl' := hl
        simp only [h1, List.getElem?_map] at hl
        cases hx : x.s.w.lst[l]? with
        | none => rw [hx] at hl; simp at hl
        | some y =>
          rw [hx] at hl
          cases y with
          | waiting wk' =>
            obtain ⟨h3, h4⟩ := hi.shutTx _ _ ht (List.mem_cons_self ..)
            exact ⟨hrc h3, hR h3 fun f hf => .inr ⟨⟨⟨_, hx⟩, _, hl'⟩, .inl (h4 f hf)⟩⟩
          | notified wk' => simp [LCell.notify] at hl; subst hl; exact old hx
      · simp only [h1] at hl; exact old hl
    · intro j hj
      rcases execR_joinNone he hj with h1 | ⟨h1, l, rfl⟩ | ⟨h1, l, rfl⟩
      · rcases hi.join _ h1 with ⟨h3, h4⟩ | ⟨h3, h4⟩
        · exact .inl ⟨hrc h3, hR h3 (h4.trans (hloc _))⟩
        · exact .inr ⟨hsc h3, hS h3 (h4.trans (hloc _))⟩
      · exact .inl ⟨hrc h1, hR h1 fun f hf => .inr ⟨⟨l, .inl rfl⟩, .inr ⟨.receivers, by simp [Micro.acq], hi.rcvr f hf⟩⟩⟩
      · exact .inr ⟨hsc h1, hS h1 fun f hf => .inr ⟨⟨l, .inr rfl⟩, .inr ⟨.senders, by simp [Micro.acq], hi.sndr f hf⟩⟩⟩

theorem knInv_reach {cap : Option Nat} {x : KSys} (h : KReach cap x) : KnInv x := by
  induction h with
  | init =>
    have hb : ∀ K : Know, Know.le (fun _ => False) K := fun K f hf => hf.elim
    refine ⟨fun i => hb _, fun _ _ _ _ => hb _, fun _ => hb _, fun _ => hb _, hb _, hb _, ?_, ?_, ?_, ?_, ?_, ?_⟩ <;> simp [init]
    intro j hj
    rcases j with _ | _ | j <;> simp at hj
  | step h hs ih => exact knInv_step h ih hs

/-- What the acting call knows once the event has happened. -/
def Told (k : Kn) (w : World) (t : Nat) : Ev → Prop
  | .recv _ _ (.one m) | .recv _ _ (.all m) => (k.sent m.id).le (k.th t)
  | .recv _ _ .shutdown => w.sc = 0 ∧ k.dropS.le (k.th t)
  | .replyOk _ i _ => (k.answered i).le (k.th t)
  | .replyInt _ i => (k.ended i).le (k.th t)
  | .sendErr _ _ | .connected _ false | .joined _ => (w.rcv = 0 ∧ k.dropR.le (k.th t)) ∨ (w.sc = 0 ∧ k.dropS.le (k.th t))
  | _ => True

theorem recv_shutdown_lag {w : World} {r b wk : Nat} {w' : World} {ms : List Micro} (he : exec w (.recvTry r b wk) = (w', ms))
    (hd : w.uq = []) (hb : w.items b = []) (h : w' = w.yieldMsg r b .shutdown) : w.lag ≠ .late := by
  intro hl
  subst h
  simp [exec, World.tryRecv, Heap.peek, hd, hb, hl, Prio.cmpOpt] at he
  have := congrArg (fun w => w.cells.length) he.1
  simp at this

theorem told_step {cap : Option Nat} {x x' : KSys} {t : Nat} (hx : KReach cap x) (hs : KStep x t x') :
    LogBy (Told x'.k x'.s.w t) x.s.w.log x'.s.w.log := by
  have hi := knInv_reach hx
  have hr := hx.reachable
  cases hs with
  | @call c s' ka hs =>
    rcases step_rel hs with ⟨c', w', ms, hc', hc, rfl⟩ | ⟨t, m1, rest, w', ms, hc', ht, he, rfl⟩
    · obtain rfl : c = c' := by simpa using hc'
      have acq : ∀ l ∈ c.acq x.s.w, (x.k.loc l).le ((x.k.call x.s.w x.s.th.length c ka).th x.s.th.length) := by
        intro l hl f hf
        simp only [Kn.call, if_true]
        exact .inr ⟨l, hl, hf⟩
      have hsc := sc_zero_call hr hc
      have hrc := rcv_zero_call hr hc
      cases hc
      case pollReply_value ho hv => exact LogBy.one ((hi.ans _).trans (acq _ (by simp [Call.acq, ho])))
      case pollReply_interrupted ho hv => exact LogBy.one ((hi.fin _).trans (acq _ (by simp [Call.acq, ho])))
      case pollJoin_none ho =>
        refine LogBy.one ?_
        rcases hi.join _ ho with ⟨h1, h2⟩ | ⟨h1, h2⟩
        · exact .inl ⟨hrc h1, h2.trans (acq _ (by simp [Call.acq, ho]))⟩
        · exact .inr ⟨hsc h1, h2.trans (acq _ (by simp [Call.acq, ho]))⟩
      case pollJoin_notified ho hl =>
        obtain ⟨h1, h2⟩ := hi.notified _ _ hl
        exact LogBy.one (.inl ⟨hrc h1, h2.trans (acq _ (by simp [Call.acq, ho]))⟩)
      case next => simp [World.addObj]; exact .refl _
      all_goals first
        | exact .refl _
        | exact LogBy.one trivial
    · simp at hc'
  | @exec _ m rest s' ht hs =>
    have hex : exec x.s.w m = (s'.w, (exec x.s.w m).2) := by
      simp only [Sys.step, ht] at hs
      simp at hs; subst hs; rfl
    rcases step_rel hs with ⟨c', w', ms, hc', hc, rfl⟩ | ⟨t', m1, rest1, w', ms, hc', ht', he, rfl⟩
    · simp at hc'
    obtain rfl : t = t' := by simpa using hc'
    rw [ht] at ht'
    obtain ⟨rfl, rfl⟩ : m = m1 ∧ rest = rest1 := by simpa using ht'
    have r := regWs_reachable hr
    have acq : ∀ l ∈ m.acq x.s.w, (x.k.loc l).le ((x.k.exec x.s.w w' t m).th t) := by
      intro l hl f hf
      simp only [Kn.exec, if_true]
      exact .inr ⟨l, hl, hf⟩
    have hsent : (∀ i, ¬ m.puts x.s.w i) → ∀ i, ((x.k.exec x.s.w w' t m).sent i).le (x.k.sent i) := by
      intro h i f hf; rcases hf with hf | hf; exact hf; exact absurd hf.1 (h i)
    have hdS : (∀ rc, m ≠ .dropTx rc) → (x.k.exec x.s.w w' t m).dropS.le x.k.dropS := by
      intro h f hf; rcases hf with hf | ⟨⟨rc, hf, -⟩, -⟩; exact hf; exact absurd hf (h rc)
    have hdR : m ≠ .dropRx → (x.k.exec x.s.w w' t m).dropR.le x.k.dropR := by
      intro h f hf; rcases hf with hf | hf; exact hf; exact absurd hf.1 h
    have hans : (∀ b am r brk, m ≠ .respond b am r brk) → ∀ i, ((x.k.exec x.s.w w' t m).answered i).le (x.k.answered i) := by
      intro h i f hf; rcases hf with hf | ⟨⟨b, m, r, brk, hf, -⟩, -⟩; exact hf; exact absurd hf (h _ _ _ _)
    have hend : w'.resp = x.s.w.resp → ∀ i, ((x.k.exec x.s.w w' t m).ended i).le (x.k.ended i) := by
      intro h i f hf
      rcases hf with hf | ⟨⟨⟨wk, h1⟩, wk', h2⟩, -⟩
      · exact hf
      · rw [h, h1] at h2; simp at h2
    have one : LogBy (Told (x.k.exec x.s.w w' t m) w' t) x.s.w.log x.s.w.log := .refl _
    cases he
    case recv_all hp _ _ =>
      exact (popBroadcast_logBy r hp fun _ _ => trivial).cons ((hsent (by simp [Micro.puts]) _).trans
        ((hi.mtx _).trans (acq _ (by simp only [Micro.acq]; split <;> simp))))
    case recv_one hp _ _ =>
      rw [World.yieldMsg_log, World.popUnicast_log hp]
      exact LogBy.one ((hsent (by simp [Micro.puts]) _).trans ((hi.mtx _).trans (acq _ (by simp only [Micro.acq]; split <;> simp))))
    case recvBcast_some hp =>
      exact (popBroadcast_logBy r hp fun _ _ => trivial).cons ((hsent (by simp [Micro.puts]) _).trans ((hi.mtx _).trans (acq _ (by simp [Micro.acq]))))
    case recvPoll_one hp =>
      exact LogBy.one ((hsent (by simp [Micro.puts]) _).trans ((hi.cell _ _ _ hp).trans (acq _ (by simp [Micro.acq]))))
    case recvPoll_shutdown hp =>
      exact LogBy.one ⟨(hi.cellShut _ _ hp).1, (hdS (by simp)).trans ((hi.cellShut _ _ hp).2.trans (acq _ (by simp [Micro.acq])))⟩
    case recv_shutdown h1 h2 h3 =>
      have hl := recv_shutdown_lag hex h1 h2 rfl
      exact LogBy.one ⟨h3, (hdS (by simp)).trans (hi.sndr.trans (acq _ (by simp [Micro.acq, hl])))⟩
    case shutTx => exact shutTx_logBy (fun i => trivial) _
    case critAll_park => exact lateLog_logBy _ _ trivial
    case critOne_park => exact lateLog_logBy _ _ trivial
    case critOne_queue => exact lateLog_logBy _ _ trivial
    case critOne_hand => exact lateLog_logBy _ _ trivial
    case critAll_sent => exact (lateLog_logBy _ _ trivial).cons trivial
    case dropBq => simp only [World.decBq_log]; exact .refl _
    case sendLd1_err h =>
      exact (LogBy.one trivial).cons (.inl ⟨h, (hdR (by simp)).trans (hi.rcvr.trans (acq _ (by simp [Micro.acq])))⟩)
    case sendLd2_err h =>
      exact (LogBy.one trivial).cons (.inr ⟨h, (hdS (by simp)).trans (hi.sndr.trans (acq _ (by simp [Micro.acq])))⟩)
    case pollWs_closed h =>
      exact LogBy.one (.inl ⟨(hi.closed _ _ h).1, (hdR (by simp)).trans ((hi.closed _ _ h).2.trans (acq _ (by simp [Micro.acq])))⟩)
    case sendFin_value => exact LogBy.one ((hans (by simp) _).trans ((hi.ans _).trans (acq _ (by simp [Micro.acq]))))
    case sendFin_interrupted => exact LogBy.one ((hend rfl _).trans ((hi.fin _).trans (acq _ (by simp [Micro.acq]))))
    case conn1_no h => exact LogBy.one (.inl ⟨h, (hdR (by simp)).trans (hi.rcvr.trans (acq _ (by simp [Micro.acq])))⟩)
    case conn2 =>
      refine LogBy.one ?_
      cases h : decide (0 < x.s.w.sc) with
      | true => trivial
      | false => exact .inr ⟨by simpa using h, (hdS (by simp)).trans (hi.sndr.trans (acq _ (by simp [Micro.acq])))⟩
    case respond_one => exact (LogBy.one trivial).cons trivial
    all_goals first
      | exact .refl _
      | exact LogBy.one trivial

theorem told_of {cap : Option Nat} {x x' : KSys} {t : Nat} {e : Ev} (hx : KReach cap x) (hs : KStep x t x') (he : x.adds x' e) :
    Told x'.k x'.s.w t e := by
  obtain ⟨l, h1, h2⟩ := told_step hx hs
  obtain ⟨l', h3, h4⟩ := he
  rw [h1] at h3
  have := List.append_cancel_right h3
  subst this
  exact h2 e h4

/-- Any number of steps, by any calls. -/
inductive KSteps : KSys → KSys → Prop
  | refl {x : KSys} : KSteps x x
  | tail {x y z : KSys} {t : Nat} : KSteps x y → KStep y t z → KSteps x z

theorem KSteps.reach {cap : Option Nat} {x y : KSys} (h : KSteps x y) (hx : KReach cap x) : KReach cap y := by
  induction h with
  | refl => exact hx
  | tail _ hs ih => exact ih.step hs

/-- The call `c` begins, made by somebody who knows `ka`. It is number `x.s.th.length`. -/
def KBegins (x : KSys) (c : Call) (ka : Know) (x' : KSys) : Prop :=
  x.s.step (.call c) = some x'.s ∧ x'.k = x.k.call x.s.w x.s.th.length c ka

theorem KBegins.step {x x' : KSys} {c : Call} {ka : Know} (h : KBegins x c ka x') : KStep x x.s.th.length x' := by
  obtain ⟨s', k'⟩ := x'
  obtain ⟨h1, h2⟩ := h
  simp only at h1 h2
  subst h2
  exact .call ka h1

theorem KBegins.knows {x x' : KSys} {c : Call} {ka : Know} (h : KBegins x c ka x') : ka.le (x'.k.th x.s.th.length) := by
  intro f hf
  rw [h.2]
  simp only [Kn.call, if_true]; exact .inl hf

/-- What a call knows is never forgotten, and neither is what the ghosts record. -/
theorem kn_kept {x x' : KSys} {t : Nat} (hs : KStep x t x') :
    (∀ u < x.s.th.length, (x.k.th u).le (x'.k.th u)) ∧ (∀ i, (x.k.sent i).le (x'.k.sent i)) ∧ (∀ i, (x.k.answered i).le (x'.k.answered i)) ∧
      (∀ i, (x.k.ended i).le (x'.k.ended i)) ∧ x.k.dropS.le x'.k.dropS ∧ x.k.dropR.le x'.k.dropR := by
  cases hs with
  | @call c s' ka hs =>
    refine ⟨?_, fun _ _ h => h, fun _ _ h => h, fun _ _ h => h, fun _ h => h, fun _ h => h⟩
    intro u hu f hf
    simp only [Kn.call, if_neg (Nat.ne_of_lt hu)]; exact hf
  | @exec _ m rest s' ht hs =>
    refine ⟨?_, fun _ _ h => .inl h, fun _ _ h => .inl h, fun _ _ h => .inl h, fun _ h => .inl h, fun _ h => .inl h⟩
    intro u hu f hf
    simp only [Kn.exec]
    split
    · rename_i e; subst e; exact .inl hf
    · exact hf

/-- A step of a call stays to be made until the call makes it. -/
theorem kn_pending {x x' : KSys} {t u : Nat} {ms : List Micro} (hs : KStep x u x') (ht : x.s.th[t]? = some ms) :
    (x'.s.th[t]? = some ms) ∨
    (∃ m rest ms', ms = m :: rest ∧ x'.s.th[t]? = some (ms' ++ rest) ∧ x'.k = x.k.exec x.s.w x'.s.w t m ∧ ExecR x.s.w m x'.s.w ms') := by
  have hlt := (List.getElem?_eq_some_iff.mp ht).1
  cases hs with
  | @call c s' ka hs =>
    left
    rcases step_rel hs with ⟨c', w', ms', hc', hc, rfl⟩ | ⟨t, m1, rest, w', ms', hc', ht', he, rfl⟩
    · simp only; rw [List.getElem?_append_left hlt]; exact ht
    · simp at hc'
  | @exec _ m rest s' hu hs =>
    rcases step_rel hs with ⟨c', w', ms', hc', hc, rfl⟩ | ⟨t', m1, rest1, w', ms', hc', ht', he, rfl⟩
    · simp at hc'
    obtain rfl : u = t' := by simpa using hc'
    rw [hu] at ht'
    obtain ⟨rfl, rfl⟩ : m = m1 ∧ rest = rest1 := by simpa using ht'
    by_cases e : u = t
    · subst e
      rw [hu] at ht
      obtain rfl : m :: rest = ms := by simpa using ht
      right
      exact ⟨m, rest, ms', rfl, by simp [List.getElem?_set, hlt], rfl, he⟩
    · left
      simp [List.getElem?_set, e]; exact ht

def mSnd (i : Nat) : Micro → Nat
  | .sendLd1 _ _ m _ _ | .sendLd2 _ _ m _ _ | .sendCrit _ _ m _ _ => mid1 i m
  | _ => 0

/-- A message that is on its way into the mailbox has not been received. -/
theorem unsent_unseen {cap : Option Nat} {s : Sys} (h : Reachable cap s) {t : Nat} {mc : Micro} {rest : List Micro} {i : Nat}
    (ht : s.th[t]? = some (mc :: rest)) (hm : mSnd i mc = 1) : s.w.log.countP (Ev.yieldsUni i) = 0 ∧ s.w.log.countP (Ev.acceptsBc i) = 0 := by
  have h1 := held_reachable h i
  have h2 := created_le i s.w
  have h3 := post_reachable h i
  have h4 := sumBy_le (oPost_le i) s.w.objs
  have h5 := tot_le (f := fun m => mSnd i m + mPost i m) (g := mAll i) (by intro m; cases m <;> simp [mSnd, mPost, mAll]) s.th
  rw [tot_add] at h5
  have h6 := tot_head (mSnd i) ht
  have h9 := sumBy_le (ePost_le i) s.w.log
  have e1 : s.w.log.countP (Ev.acceptsBc i) ≤ sumBy (eAll i) s.w.log := by
    rw [← sumBy_countP (f := fun e => if e.acceptsBc i then 1 else 0) (fun _ => rfl)]
    apply sumBy_le; intro e
    cases e <;> simp [Ev.acceptsBc, eAll, mid1]
  simp only [World.held] at h1
  simp only [World.post] at h3
  rw [eRecv_count] at h3
  omega

/-! ## C73 -/

/-- **C73.** Whoever receives a message sees what its sender saw when it put the message into the mailbox — however it travels: through the queue,
through the queue after waiting for room, directly to a waiting receive, back into the queue when that receive is dropped. The same for a broadcast. -/
theorem C73_message {cap : Option Nat} {x x' : KSys} {t r b : Nat} {m : Msg} {am : AMsg} (hx : KReach cap x) (hs : KStep x t x')
    (ham : am = .one m ∨ am = .all m) (he : x.adds x' (.recv r b am)) : (x'.k.sent m.id).le (x'.k.th t) := by
  rcases ham with rfl | rfl <;> exact told_of hx hs he

/-- **C73.** A handler is told that there are no more addresses: it sees what everybody saw who has dropped a strong address. -/
theorem C73_shutdown {cap : Option Nat} {x x' : KSys} {t r b : Nat} (hx : KReach cap x) (hs : KStep x t x')
    (he : x.adds x' (.recv r b .shutdown)) : x'.k.dropS.le (x'.k.th t) :=
  (told_of hx hs he).2

/-- **C73.** Whoever gets an answer sees what the handler saw; whoever is told that there will be none sees what those saw who destroyed the request. -/
theorem C73_answer {cap : Option Nat} {x x' : KSys} {t f i : Nat} (hx : KReach cap x) (hs : KStep x t x') :
    (∀ v, x.adds x' (.replyOk f i v) → (x'.k.answered i).le (x'.k.th t)) ∧ (x.adds x' (.replyInt f i) → (x'.k.ended i).le (x'.k.th t)) :=
  ⟨fun v he => told_of hx hs he, fun he => told_of hx hs he⟩

/-- **C73.** Whoever is told that a side is gone — by a refused send, by `is_connected`, by `join` — sees what those saw who dropped the last of it: all
who dropped a mailbox if no mailbox is left, all who dropped a strong address if none of those is. -/
theorem C73_disconnected {cap : Option Nat} {x x' : KSys} {t : Nat} {e : Ev} (hx : KReach cap x) (hs : KStep x t x')
    (hev : (∃ f i, e = .sendErr f i) ∨ (∃ i, e = .connected i false) ∨ ∃ j, e = .joined j) (he : x.adds x' e) :
    (x'.s.w.rcv = 0 ∧ x'.k.dropR.le (x'.k.th t)) ∨ (x'.s.w.sc = 0 ∧ x'.k.dropS.le (x'.k.th t)) := by
  rcases hev with ⟨f, i, rfl⟩ | ⟨i, rfl⟩ | ⟨j, rfl⟩ <;> exact told_of hx hs he

/-- Somebody who knows `ka` polls a send for the first time: it has not got at the mailbox yet, or has left a trace, or has failed. -/
theorem sent_or_not {cap : Option Nat} {x x1 : KSys} {f wk mid : Nat} {md : Mode} {m : Msg} {rc : Rc} {ka : Know}
    (hx : KReach cap x) (ho : x.s.w.objs[f]? = some (.send md mid (.new m rc))) (hb : KBegins x (.pollSend f wk) ka x1) (y : KSys) (hy : KSteps x1 y) :
    ka.le (y.k.th x.s.th.length) ∧ x.s.th.length < y.s.th.length ∧
      ((∃ mc, y.s.th[x.s.th.length]? = some [mc] ∧ (mc = .sendLd1 f md m rc wk ∨ mc = .sendLd2 f md m rc wk ∨ mc = .sendCrit f md m rc wk)) ∨
        ka.le (y.k.sent m.id) ∨ Ev.dropped m.id ∈ y.s.w.log) := by
  have h1 : KReach cap x1 := hx.step hb.step
  induction hy with
  | refl =>
    refine ⟨hb.knows, ?_, .inl ?_⟩ <;> rcases step_rel hb.1 with ⟨c', w', ms, hc', hc, h2⟩ | ⟨t, m1, rest, w', ms, hc', ht, he, h2⟩ <;>
      first | (simp at hc'; done) | skip
    · rw [h2]; simp
    · obtain rfl := (by simpa using hc' : Call.pollSend f wk = c')
      rw [h2]
      cases hc <;> rename_i h3 <;> rw [ho] at h3 <;> simp at h3
      obtain ⟨rfl, rfl, rfl, rfl⟩ := h3
      exact ⟨_, by simp, .inl rfl⟩
  | @tail y z v hy hs ih =>
    obtain ⟨i1, i2, i3⟩ := ih
    have hry := hy.reach h1
    obtain ⟨k1, k2, -⟩ := kn_kept hs
    have hsuf : y.s.w.log <:+ z.s.w.log := by
      cases hs with
      | call ka h => exact step_suffix hry.reachable h
      | exec _ h => exact step_suffix hry.reachable h
    refine ⟨i1.trans (k1 _ i2), ?_, ?_⟩
    · cases hs with
      | call ka h => exact Nat.lt_of_lt_of_le i2 (step_len h)
      | exec _ h => exact Nat.lt_of_lt_of_le i2 (step_len h)
    rcases i3 with ⟨mc, h2, h3⟩ | h2 | h2
    · rcases kn_pending hs h2 with h4 | ⟨mc', rest, ms', h4, h5, h6, h7⟩
      · exact .inl ⟨mc, h4, h3⟩
      · obtain ⟨rfl, rfl⟩ : mc = mc' ∧ rest = [] := by simpa [eq_comm] using h4
        rcases h3 with rfl | rfl | rfl
        · generalize hz : z.s.w = wz at h7
          cases h7
          · right; right; simp [World.kill, World.ev, World.setObj]
          · exact .inl ⟨_, by simpa using h5, .inr (.inl rfl)⟩
        · generalize hz : z.s.w = wz at h7
          cases h7
          · right; right; simp [World.kill, World.ev, World.setObj]
          · exact .inl ⟨_, by simpa using h5, .inr (.inr rfl)⟩
        · right; left
          intro p hp
          rw [h6]
          exact .inr ⟨rfl, i1 p hp⟩
    · exact .inr (.inl (h2.trans (k2 _)))
    · exact .inr (.inr (hsuf.subset h2))

/-- **C73**, from end to end: somebody who knows `ka` polls for the first time the future of a send or broadcast; whoever receives the message knows
`ka`. -/
theorem C73_sender_to_receiver {cap : Option Nat} {x x1 y y' : KSys} {f wk mid u r b : Nat} {md : Mode} {m m' : Msg} {rc : Rc} {ka : Know} {am : AMsg}
    (hx : KReach cap x) (ho : x.s.w.objs[f]? = some (.send md mid (.new m rc))) (hb : KBegins x (.pollSend f wk) ka x1)
    (hxy : KSteps x1 y) (hs : KStep y u y') (ham : am = .one m' ∨ am = .all m') (hid : m'.id = m.id) (he : y.adds y' (.recv r b am)) :
    ka.le (y'.k.th u) := by
  have h1 : KReach cap x1 := hx.step hb.step
  have unseen : ∀ {s : Sys}, Reachable cap s → Ev.recv r b am ∈ s.w.log → s.w.log.countP (Ev.yieldsUni m.id) = 0 →
      s.w.log.countP (Ev.acceptsBc m.id) = 0 → False := by
    intro s hr hev n1 n2
    rcases ham with rfl | rfl
    · have := List.countP_eq_zero.mp n1 _ hev
      simp [Ev.yieldsUni, hid] at this
    · have h3 := (C04_broadcast_exactly_once hr b m.id).2.2.1
      have h4 : s.w.log.countP (Ev.putsBc b m.id) ≤ s.w.log.countP (Ev.acceptsBc m.id) := by
        apply List.countP_mono_left; intro e he hp
        cases e <;> simp_all [Ev.putsBc, Ev.acceptsBc]
      have h5 : s.w.log.countP (Ev.yieldsBc b m.id) = 0 := by omega
      have := List.countP_eq_zero.mp h5 _ hev
      simp [Ev.yieldsBc, hid] at this
  have hry := hxy.reach h1
  have hev : Ev.recv r b am ∈ y'.s.w.log := by
    obtain ⟨l, h2, h3⟩ := he
    rw [h2]; exact List.mem_append_left _ h3
  have hry' := (hry.step hs).reachable
  have key : ∀ {z : KSys}, KSteps x1 z → z = y' → ka.le (y'.k.sent m.id) := by
    rintro z hz rfl
    obtain ⟨-, -, ⟨mc, h2, h3⟩ | h2 | h2⟩ := sent_or_not hx ho hb _ hz
    · exact absurd (unsent_unseen hry' h2 (by rcases h3 with rfl | rfl | rfl <;> simp [mSnd, mid1])) fun h => unseen hry' hev h.1 h.2
    · exact h2
    · obtain ⟨-, n1, -, n2⟩ := C10_never_handled hry' h2
      exact (unseen hry' hev n1 n2).elim
  have := C73_message hry hs ham he
  rw [hid] at this
  exact (key (hxy.tail hs) rfl).trans this

/-- A step of the call `c`, once it is made, leaves a trace of what the caller knew. -/
theorem kn_done {cap : Option Nat} {x x1 y : KSys} {c : Call} {ka : Know} {m0 : Micro} {G : Kn → Know} (hx : KReach cap x) (hb : KBegins x c ka x1)
    (hin : ∀ w' ms, CallR x.s.w c w' ms → m0 ∈ ms) (hk : ∀ {y z : KSys} {v : Nat}, KStep y v z → (G y.k).le (G z.k))
    (hex : ∀ (k : Kn) w w' t, (k.th t).le (G (k.exec w w' t m0))) (hxy : KSteps x1 y) :
    (∃ ms, y.s.th[x.s.th.length]? = some ms ∧ m0 ∈ ms) ∨ ka.le (G y.k) := by
  have h1 : KReach cap x1 := hx.step hb.step
  suffices h : ka.le (y.k.th x.s.th.length) ∧ x.s.th.length < y.s.th.length ∧
    ((∃ ms, y.s.th[x.s.th.length]? = some ms ∧ m0 ∈ ms) ∨ ka.le (G y.k)) from h.2.2
  induction hxy with
  | refl =>
    rcases step_rel hb.1 with ⟨c', w', ms, hc', hc, h2⟩ | ⟨t, m1, rest, w', ms, hc', ht, he, h2⟩
    · obtain rfl := (by simpa using hc' : c = c')
      refine ⟨hb.knows, by rw [h2]; simp, .inl ⟨ms, by rw [h2]; simp, hin _ _ hc⟩⟩
    · simp at hc'
  | @tail y z v hy hs ih =>
    obtain ⟨i1, i2, i3⟩ := ih
    refine ⟨i1.trans ((kn_kept hs).1 _ i2), ?_, ?_⟩
    · cases hs with
      | call ka h => exact Nat.lt_of_lt_of_le i2 (step_len h)
      | exec _ h => exact Nat.lt_of_lt_of_le i2 (step_len h)
    rcases i3 with ⟨ms, h2, h3⟩ | h2
    · rcases kn_pending hs h2 with h4 | ⟨m1, rest, ms', rfl, h5, h6, h7⟩
      · exact .inl ⟨ms, h4, h3⟩
      · rcases List.mem_cons.mp h3 with rfl | h3
        · right; rw [h6]; exact i1.trans (hex _ _ _ _)
        · exact .inl ⟨_, h5, List.mem_append_right _ h3⟩
    · exact .inr (h2.trans (hk hs))

theorem mem_tot {α : Type _} (g : α → Nat) {th : List (List α)} {t : Nat} {ms : List α} {m : α} (h : th[t]? = some ms) (hm : m ∈ ms) : g m ≤ tot g th := by
  have h1 := le_sumBy (sumBy g) h
  obtain ⟨k, hk⟩ := List.getElem?_of_mem hm
  have h2 := le_sumBy g hk
  simp only [tot]; omega

/-- **C73**, from end to end: the handler of a request, knowing `ka`, returns its answer; whoever gets an answer to this request knows `ka`. -/
theorem C73_handler_to_client {cap : Option Nat} {x x1 y y' : KSys} {o v b u f v' : Nat} {m : Msg} {rn : Bool} {ka : Know}
    (hx : KReach cap x) (ho : x.s.w.objs[o]? = some (.dispatch b (.one m) rn)) (hb : KBegins x (.finish o v) ka x1)
    (hxy : KSteps x1 y) (hs : KStep y u y') (he : y.adds y' (.replyOk f m.id v')) : ka.le (y'.k.th u) := by
  have h1 : KReach cap x1 := hx.step hb.step
  have hry := hxy.reach h1
  have hr := (hry.step hs).reachable
  have hev : Ev.replyOk f m.id v' ∈ y'.s.w.log := by
    obtain ⟨l, h2, h3⟩ := he
    rw [h2]; exact List.mem_append_left _ h3
  refine Know.le.trans ?_ ((C73_answer hry hs).1 v' he)
  have hin : ∀ w' ms, CallR x.s.w (.finish o v) w' ms → Micro.respond b (.one m) v (!rn) ∈ ms := by
    intro w' ms hc
    cases hc
    rename_i h2
    rw [ho] at h2; simp at h2
    obtain ⟨rfl, rfl, rfl⟩ := h2
    simp
  rcases kn_done (m0 := .respond b (.one m) v (!rn)) (G := fun k => k.answered m.id) hx hb hin (fun hs => (kn_kept hs).2.2.1 _) (fun k w w' t p hp => by exact .inr ⟨⟨_, _, _, _, rfl, rfl⟩, hp⟩) (hxy.tail hs) with ⟨ms, h2, h3⟩ | h2
  · exfalso
    have hh := ((C18_replies hr).1 _ _ _ hev).2.1
    have h4 := held_reachable hr m.id
    have h5 := created_le m.id y'.s.w
    have h6 := mem_tot (mAll m.id) h2 h3
    obtain ⟨k, hk⟩ := List.getElem?_of_mem hh
    have h7 := le_sumBy (eAll m.id) hk
    simp [mAll, amW, mid1] at h6
    simp [eAll, n1] at h7
    simp only [World.held] at h4
    omega
  · exact h2

/-- **C73**, from end to end: somebody who knows `ka` drops a strong address. Any actor that is told that there are no more addresses knows `ka`, and so
does everybody who is told that the actor is gone for want of addresses. -/
theorem C73_address_dropped {cap : Option Nat} {x x1 y y' : KSys} {i u : Nat} {rc : Rc} {e : Ev} {ka : Know}
    (hx : KReach cap x) (ho : x.s.w.objs[i]? = some (.addr rc)) (hrc : rc.isStrong = true) (hb : KBegins x (.dropAddr i) ka x1)
    (hxy : KSteps x1 y) (hs : KStep y u y') (he : y.adds y' e)
    (hev : (∃ r b, e = .recv r b .shutdown) ∨ (((∃ f i, e = .sendErr f i) ∨ (∃ i, e = .connected i false) ∨ ∃ j, e = .joined j) ∧ y'.s.w.rcv ≠ 0)) :
    ka.le (y'.k.th u) := by
  have h1 : KReach cap x1 := hx.step hb.step
  have hry := hxy.reach h1
  have hr := (hry.step hs).reachable
  have key : y'.s.w.sc = 0 ∧ y'.k.dropS.le (y'.k.th u) := by
    rcases hev with ⟨r, b, rfl⟩ | ⟨h2, h3⟩
    · exact told_of hry hs he
    · exact (C73_disconnected hry hs h2 he).resolve_left fun h => h3 h.1
  refine Know.le.trans ?_ key.2
  have hin : ∀ w' ms, CallR x.s.w (.dropAddr i) w' ms → Micro.dropTx rc ∈ ms := by
    intro w' ms hc
    cases hc
    rename_i h2
    rw [ho] at h2; simp at h2
    subst h2; simp
  rcases kn_done (m0 := .dropTx rc) (G := fun k => k.dropS) hx hb hin (fun hs => (kn_kept hs).2.2.2.2.1) (fun k w w' t p hp => by exact .inr ⟨⟨_, rfl, hrc⟩, hp⟩) (hxy.tail hs) with ⟨ms, h2, h3⟩ | h2
  · exfalso
    have h4 := sc_reachable hr
    have h5 := mem_tot mStrong h2 h3
    simp [mStrong, Rc.cnt_strong hrc] at h5
    omega
  · exact h2

/-- **C73**, from end to end: somebody who knows `ka` drops a mailbox. Everybody who is told, while a strong address exists, that the actor is gone knows
`ka`. -/
theorem C73_mailbox_dropped {cap : Option Nat} {x x1 y y' : KSys} {i b u : Nat} {e : Ev} {ka : Know}
    (hx : KReach cap x) (ho : x.s.w.objs[i]? = some (.mailbox b)) (hb : KBegins x (.dropMailbox i) ka x1)
    (hxy : KSteps x1 y) (hs : KStep y u y') (he : y.adds y' e)
    (hev : (∃ f i, e = .sendErr f i) ∨ (∃ i, e = .connected i false) ∨ ∃ j, e = .joined j) (hsc : y'.s.w.sc ≠ 0) : ka.le (y'.k.th u) := by
  have h1 : KReach cap x1 := hx.step hb.step
  have hry := hxy.reach h1
  have hr := (hry.step hs).reachable
  have key := (C73_disconnected hry hs hev he).resolve_right fun h => hsc h.1
  refine Know.le.trans ?_ key.2
  have hin : ∀ w' ms, CallR x.s.w (.dropMailbox i) w' ms → Micro.dropRx ∈ ms := by
    intro w' ms hc
    cases hc
    simp
  rcases kn_done (m0 := .dropRx) (G := fun k => k.dropR) hx hb hin (fun hs => (kn_kept hs).2.2.2.2.2) (fun k w w' t p hp => by exact .inr ⟨rfl, hp⟩) (hxy.tail hs) with ⟨ms, h2, h3⟩ | h2
  · exfalso
    have h4 := rcv_reachable hr
    have h5 := mem_tot mRcv h2 h3
    simp [mRcv] at h5
    omega
  · exact h2

/-! ## Examples -/

/-- Run a schedule; the callers know the given facts. -/
def KSys.go : KSys → List (Act × Know) → Option KSys
  | x, [] => some x
  | x, (.call c, ka) :: as => (x.s.step (.call c)).bind fun s' => KSys.go ⟨s', x.k.call x.s.w x.s.th.length c ka⟩ as
  | x, (.exec t, _) :: as =>
    match x.s.th[t]? with
    | some (m :: _) => (x.s.step (.exec t)).bind fun s' => KSys.go ⟨s', x.k.exec x.s.w s'.w t m⟩ as
    | _ => none

theorem KSteps.head {x y z : KSys} {t : Nat} (h : KStep x t y) (h' : KSteps y z) : KSteps x z := by
  induction h' with
  | refl => exact .tail .refl h
  | tail _ hs ih => exact .tail ih hs

theorem KSteps.go {x y : KSys} {as : List (Act × Know)} (h : x.go as = some y) : KSteps x y := by
  induction as generalizing x with
  | nil => simp [KSys.go] at h; subst h; exact .refl
  | cons a as ih =>
    obtain ⟨a, ka⟩ := a
    cases a with
    | call c =>
      simp only [KSys.go, Option.bind_eq_some_iff] at h
      obtain ⟨s', h1, h2⟩ := h
      exact .head (.call ka h1) (ih h2)
    | exec t =>
      simp only [KSys.go] at h
      split at h
      · rename_i m rest ht
        simp only [Option.bind_eq_some_iff] at h
        obtain ⟨s', h1, h2⟩ := h
        exact .head (.exec ht h1) (ih h2)
      · simp at h

def KSys.goD (x : KSys) (as : List (Act × Know)) : KSys := (x.go as).getD x

def noFact : Know := fun _ => False
def fact7 : Know := fun f => f = 7

/-- Steps of call `t`. -/
def exE (n t : Nat) : List (Act × Know) := List.replicate n (.exec t, noFact)
def exC (c : Call) : Act × Know := (.call c, noFact)
def exBot (cap : Option Nat) : KSys := ⟨init cap, Kn.bot⟩

/-! Somebody who alone knows fact 7 polls a send; somebody who knows nothing polls a receive, which gets the message from the queue. -/
def exK0 : KSys := (exBot none).goD [exC (.send 0)]
def exK1 : KSys := exK0.goD [(.call (.pollSend 2 0), fact7)]
def exK2 : KSys := exK1.goD (exE 3 1 ++ [exC (.next 1), exC (.pollRecv 3 0)])
def exK3 : KSys := exK2.goD (exE 1 3)

/-- The hypotheses of `C73_sender_to_receiver` are met, and what it says is news to the receiver. -/
example : KReach none exK0 ∧ exK0.s.w.objs[2]? = some (.send .ret 0 (.new ⟨0, .valued 0⟩ .strong)) ∧ KBegins exK0 (.pollSend 2 0) fact7 exK1 ∧
    KSteps exK1 exK2 ∧ KStep exK2 3 exK3 ∧ exK2.adds exK3 (.recv 3 0 (.one ⟨0, .valued 0⟩)) ∧ ¬ exK2.k.th 3 7 ∧ exK3.k.th 3 7 := by
  have h0 : KReach none exK0 := (KSteps.go (x := exBot none) (as := [exC (.send 0)]) rfl).reach .init
  have hb : KBegins exK0 (.pollSend 2 0) fact7 exK1 := ⟨rfl, rfl⟩
  have h2 : KSteps exK1 exK2 := KSteps.go (as := exE 3 1 ++ [exC (.next 1), exC (.pollRecv 3 0)]) rfl
  have h3 : KStep exK2 3 exK3 := .exec (m := .recvTry 3 0 0) (rest := []) rfl rfl
  have he : exK2.adds exK3 (.recv 3 0 (.one ⟨0, .valued 0⟩)) := ⟨[.recv 3 0 (.one ⟨0, .valued 0⟩)], rfl, by simp⟩
  refine ⟨h0, rfl, hb, h2, h3, he, ?_, C73_sender_to_receiver h0 rfl hb h2 h3 (.inl rfl) rfl he 7 rfl⟩
  intro h
  change noFact 7 ∨ ∃ l ∈ ([] : List Loc), _ at h
  simp [noFact] at h

/-! The same when the receive was there first: the message is handed to it directly. -/
def exW0 : KSys := (exBot none).goD ([exC (.send 0), exC (.next 1), exC (.pollRecv 3 0)] ++ exE 2 2)
def exW1 : KSys := exW0.goD [(.call (.pollSend 2 0), fact7)]
def exW2 : KSys := exW1.goD (exE 3 3 ++ [exC (.pollRecv 3 1)])
def exW3 : KSys := exW2.goD (exE 1 4)

example : KReach none exW0 ∧ KBegins exW0 (.pollSend 2 0) fact7 exW1 ∧
    KSteps exW1 exW2 ∧ KStep exW2 4 exW3 ∧ exW2.adds exW3 (.recv 3 0 (.one ⟨0, .valued 0⟩)) ∧ exW3.k.th 4 7 := by
  have h0 : KReach none exW0 := (KSteps.go (x := exBot none) (as := [exC (.send 0), exC (.next 1), exC (.pollRecv 3 0)] ++ exE 2 2) rfl).reach .init
  have hb : KBegins exW0 (.pollSend 2 0) fact7 exW1 := ⟨rfl, rfl⟩
  have h2 : KSteps exW1 exW2 := KSteps.go (as := exE 3 3 ++ [exC (.pollRecv 3 1)]) rfl
  have h3 : KStep exW2 4 exW3 := .exec (m := .recvPoll 3 0 0 1) (rest := []) rfl rfl
  have he : exW2.adds exW3 (.recv 3 0 (.one ⟨0, .valued 0⟩)) := ⟨[.recv 3 0 (.one ⟨0, .valued 0⟩)], rfl, by simp⟩
  exact ⟨h0, hb, h2, h3, he, C73_sender_to_receiver (rc := .strong) (mid := 0) (md := .ret) h0 rfl hb h2 h3 (.inl rfl) rfl he 7 rfl⟩

/-! A handler who alone knows fact 7 answers. -/
def exH0 : KSys := (exBot none).goD ([exC (.send 0), exC (.pollSend 2 0)] ++ exE 5 1 ++ [exC (.next 1), exC (.pollRecv 3 0)] ++ exE 1 3 ++
  [exC (.dispatch 3)])
def exH1 : KSys := exH0.goD [(.call (.finish 3 42), fact7)]
def exH2 : KSys := exH1.goD (exE 3 5 ++ [exC (.pollSend 2 1)])
def exH3 : KSys := exH2.goD (exE 1 6)

/-- The hypotheses of `C73_handler_to_client` are met. -/
example : KReach none exH0 ∧ exH0.s.w.objs[3]? = some (.dispatch 0 (.one ⟨0, .valued 0⟩) true) ∧ KBegins exH0 (.finish 3 42) fact7 exH1 ∧
    KSteps exH1 exH2 ∧ KStep exH2 6 exH3 ∧ exH2.adds exH3 (.replyOk 2 0 42) ∧ ¬ exH2.k.th 6 7 ∧ exH3.k.th 6 7 := by
  have h0 : KReach none exH0 := (KSteps.go (x := exBot none) (as := [exC (.send 0), exC (.pollSend 2 0)] ++ exE 5 1 ++
    [exC (.next 1), exC (.pollRecv 3 0)] ++ exE 1 3 ++ [exC (.dispatch 3)]) rfl).reach .init
  have hb : KBegins exH0 (.finish 3 42) fact7 exH1 := ⟨rfl, rfl⟩
  have h2 : KSteps exH1 exH2 := KSteps.go (as := exE 3 5 ++ [exC (.pollSend 2 1)]) rfl
  have h3 : KStep exH2 6 exH3 := .exec (m := .sendFin 2 .ret 0 1) (rest := []) rfl rfl
  have he : exH2.adds exH3 (.replyOk 2 0 42) := ⟨[.replyOk 2 0 42], rfl, by simp⟩
  have ho : exH0.s.w.objs[3]? = some (.dispatch 0 (.one ⟨0, .valued 0⟩) true) := rfl
  refine ⟨h0, ho, hb, h2, h3, he, ?_, C73_handler_to_client h0 ho hb h2 h3 he 7 rfl⟩
  intro h
  change noFact 7 ∨ ∃ l ∈ ([] : List Loc), _ at h
  simp [noFact] at h

/-! Somebody who alone knows fact 7 drops the last strong address. -/
def exD0 : KSys := (exBot none).goD [exC (.next 1), exC (.downgrade 0)]
def exD1 : KSys := exD0.goD [(.call (.dropAddr 0), fact7)]
def exD2 : KSys := exD1.goD (exE 2 2 ++ [exC (.pollRecv 2 0)])
def exD3 : KSys := exD2.goD (exE 1 3)

/-- The hypotheses of `C73_address_dropped` are met. -/
example : KReach none exD0 ∧ exD0.s.w.objs[0]? = some (.addr .strong) ∧ KBegins exD0 (.dropAddr 0) fact7 exD1 ∧
    KSteps exD1 exD2 ∧ KStep exD2 3 exD3 ∧ exD2.adds exD3 (.recv 2 0 .shutdown) ∧ ¬ exD2.k.th 3 7 ∧ exD3.k.th 3 7 := by
  have h0 : KReach none exD0 := (KSteps.go (x := exBot none) (as := [exC (.next 1), exC (.downgrade 0)]) rfl).reach .init
  have hb : KBegins exD0 (.dropAddr 0) fact7 exD1 := ⟨rfl, rfl⟩
  have h2 : KSteps exD1 exD2 := KSteps.go (as := exE 2 2 ++ [exC (.pollRecv 2 0)]) rfl
  have h3 : KStep exD2 3 exD3 := .exec (m := .recvTry 2 0 0) (rest := []) rfl rfl
  have he : exD2.adds exD3 (.recv 2 0 .shutdown) := ⟨[.recv 2 0 .shutdown], rfl, by simp⟩
  refine ⟨h0, rfl, hb, h2, h3, he, ?_, C73_address_dropped h0 (rc := .strong) rfl rfl hb h2 h3 he (.inl ⟨_, _, rfl⟩) 7 rfl⟩
  intro h
  change noFact 7 ∨ ∃ l ∈ ([] : List Loc), _ at h
  simp [noFact] at h

/-- **C73**, the limit of it: a weak address whose `upgrade` is refused tells that no strong address is left, and nothing else. In this execution somebody
drops the last one, knowing something; somebody else then tries to upgrade a weak address, and still does not know it (the load in `TxStrong::try_new`
is `Relaxed`). -/
theorem C73_refused_upgrade_tells_nothing : ∃ x x1 y y' : KSys, KReach none x ∧ x.s.w.objs[0]? = some (.addr .strong) ∧
    KBegins x (.dropAddr 0) fact7 x1 ∧ KSteps x1 y ∧ KBegins y (.upgrade 3) noFact y' ∧ y.adds y' (.upgraded 3 false) ∧
    ¬ fact7.le (y'.k.th y.s.th.length) := by
  have h0 : KReach none exD0 := (KSteps.go (x := exBot none) (as := [exC (.next 1), exC (.downgrade 0)]) rfl).reach .init
  have h2 : KSteps exD1 (exD1.goD (exE 2 2)) := KSteps.go (as := exE 2 2) rfl
  refine ⟨exD0, exD1, exD1.goD (exE 2 2), (exD1.goD (exE 2 2)).goD [exC (.upgrade 3)], h0, rfl, ⟨rfl, rfl⟩, h2, ⟨rfl, rfl⟩,
    ⟨[.upgraded 3 false], rfl, by simp⟩, ?_⟩
  intro h
  have := h 7 rfl
  change noFact 7 ∨ ∃ l ∈ ([] : List Loc), _ at this
  simp [noFact] at this

/-! Somebody who alone knows fact 7 drops the last mailbox. -/
def exM0 : KSys := exBot none
def exM1 : KSys := exM0.goD [(.call (.dropMailbox 1), fact7)]
def exM2 : KSys := exM1.goD (exE 3 0 ++ [exC (.isConnected 0)])
def exM3 : KSys := exM2.goD (exE 1 1)

/-- The hypotheses of `C73_mailbox_dropped` are met. -/
example : KReach none exM0 ∧ exM0.s.w.objs[1]? = some (.mailbox 0) ∧ KBegins exM0 (.dropMailbox 1) fact7 exM1 ∧
    KSteps exM1 exM2 ∧ KStep exM2 1 exM3 ∧ exM2.adds exM3 (.connected 0 false) ∧ exM3.s.w.sc = 1 ∧ ¬ exM2.k.th 1 7 ∧ exM3.k.th 1 7 := by
  have h0 : KReach none exM0 := .init
  have hb : KBegins exM0 (.dropMailbox 1) fact7 exM1 := ⟨rfl, rfl⟩
  have h2 : KSteps exM1 exM2 := KSteps.go (as := exE 3 0 ++ [exC (.isConnected 0)]) rfl
  have h3 : KStep exM2 1 exM3 := .exec (m := .conn1 0) (rest := []) rfl rfl
  have he : exM2.adds exM3 (.connected 0 false) := ⟨[.connected 0 false], rfl, by simp⟩
  refine ⟨h0, rfl, hb, h2, h3, he, rfl, ?_, C73_mailbox_dropped h0 (b := 0) rfl hb h2 h3 he (.inr (.inl ⟨_, rfl⟩)) (by decide) 7 rfl⟩
  intro h
  change noFact 7 ∨ ∃ l ∈ ([] : List Loc), _ at h
  simp [noFact] at h

end Xtra
