import Verif.PropsLost
/-! What one receive, and one handling step, does to everything that is queued or parked (proof tools for C13, C29). -/

set_option linter.unusedSimpArgs false

namespace Xtra

def WsCell.msg? : WsCell → Option Msg
  | .active _ m => some m
  | _ => none

/-- Messages of the live parked senders among the handles `q`. -/
def parkedMsgs (ws : List WsCell) (q : List Nat) : List Msg := q.filterMap (fun h => (ws[h]?).bind WsCell.msg?)

theorem mem_parkedMsgs {ws : List WsCell} {q : List Nat} {m : Msg} :
    m ∈ parkedMsgs ws q ↔ ∃ h wk, h ∈ q ∧ ws[h]? = some (.active wk m) := by
  simp only [parkedMsgs, List.mem_filterMap]
  constructor
  · rintro ⟨h, h1, h2⟩
    cases hx : ws[h]? with
    | none => simp [hx] at h2
    | some x => cases x <;> simp [hx, WsCell.msg?] at h2; subst h2; exact ⟨h, _, h1, hx⟩
  · rintro ⟨h, wk, h1, h2⟩
    exact ⟨h, h1, by simp [h2, WsCell.msg?]⟩

theorem parkedMsgs_set {ws : List WsCell} {q : List Nat} {h : Nat} {x : WsCell} (hn : h ∉ q) :
    parkedMsgs (ws.set h x) q = parkedMsgs ws q := by
  induction q with
  | nil => rfl
  | cons k q ih =>
    simp at hn
    unfold parkedMsgs at *
    rw [List.filterMap_cons, List.filterMap_cons, ih hn.2, List.getElem?_set_ne hn.1]

theorem parkedMsgs_filter (ws : List WsCell) (q : List Nat) : parkedMsgs ws (q.filter (wsActive ws)) = parkedMsgs ws q := by
  induction q with
  | nil => rfl
  | cons h q ih =>
    unfold parkedMsgs at *
    by_cases ha : wsActive ws h = true
    · simp [List.filter_cons, ha, List.filterMap_cons, ih]
    · simp only [Bool.not_eq_true] at ha
      have : (ws[h]?).bind WsCell.msg? = none := by
        unfold wsActive at ha
        split at ha <;> simp_all [WsCell.msg?]
      simp [List.filter_cons, ha, List.filterMap_cons, this, ih]

theorem parkedMsgs_takes {ws : List WsCell} {q q' : List Nat} {h : Nat} {wk : Option Nat} {m : Msg}
    (t : Takes ws q h wk m q') (hn : q.Nodup) :
    (m :: parkedMsgs (ws.set h (.delivered wk)) q').Perm (parkedMsgs ws q) := by
  rw [parkedMsgs_set (t.not_mem hn), ← parkedMsgs_filter ws q]
  have := (t.perm.filterMap (fun h => (ws[h]?).bind WsCell.msg?)).symm
  simpa [parkedMsgs, t.cell, WsCell.msg?] using this

theorem parkedMsgs_gone {ws : List WsCell} {q : List Nat} (h : ∀ x ∈ q, ws[x]? = some .gone) : parkedMsgs ws q = [] := by
  rw [List.eq_nil_iff_forall_not_mem]
  intro m hm
  obtain ⟨k, wk, h1, h2⟩ := mem_parkedMsgs.mp hm
  rw [h k h1] at h2; simp at h2

/-- Unicast messages queued or parked. -/
def World.pU (w : World) : List Msg := w.uq ++ parkedMsgs w.ws w.wOne
/-- Broadcasts queued for `b` or parked. -/
def World.pB (w : World) (b : Nat) : List Msg := w.items b ++ parkedMsgs w.ws w.wAll

/-- Nothing relevant to what mailbox object `i` (queue `b`) will receive changed. -/
structure Keeps (i b : Nat) (w w' : World) : Prop where
  cap : w'.cap = w.cap
  uq : w'.uq = w.uq
  wOne : w'.wOne = w.wOne
  wAll : w'.wAll = w.wAll
  ws : w'.ws = w.ws
  sc : w'.sc = w.sc
  items : w'.items b = w.items b
  obj : w'.objs[i]? = w.objs[i]?

theorem Keeps.refl (i b : Nat) (w : World) : Keeps i b w w := ⟨rfl, rfl, rfl, rfl, rfl, rfl, rfl, rfl⟩
theorem Keeps.trans {i b : Nat} {w w1 w2 : World} (h1 : Keeps i b w w1) (h2 : Keeps i b w1 w2) : Keeps i b w w2 :=
  ⟨h2.cap.trans h1.cap, h2.uq.trans h1.uq, h2.wOne.trans h1.wOne, h2.wAll.trans h1.wAll, h2.ws.trans h1.ws,
    h2.sc.trans h1.sc, h2.items.trans h1.items, h2.obj.trans h1.obj⟩
theorem Keeps.pU {i b : Nat} {w w' : World} (h : Keeps i b w w') : w'.pU = w.pU := by
  simp only [World.pU, h.uq, h.wOne, h.ws]
theorem Keeps.pB {i b : Nat} {w w' : World} (h : Keeps i b w w') : w'.pB b = w.pB b := by
  simp only [World.pB, h.items, h.wAll, h.ws]

/-- Steps by which the handling of a received message ends. -/
def Micro.ends : Micro → Bool
  | .dropRx => true
  | .dropBq _ => true
  | .discard _ => true
  | .respond _ _ _ _ => true
  | _ => false

theorem Solo.rcv {cap : Option Nat} {w : World} {ms : List Micro} (h : Solo cap w ms) :
    w.rcv = sumBy oRcv w.objs + sumBy mRcv ms := by
  obtain ⟨th, hr, ht⟩ := h.tots
  have := rcv_reachable hr
  rwa [ht] at this
theorem Solo.refs {cap : Option Nat} {w : World} {ms : List Micro} (h : Solo cap w ms) (k : Nat) :
    w.refs k = sumBy (oBq k) w.objs + sumBy (mBq k) ms := by
  obtain ⟨th, hr, ht⟩ := h.tots
  have := refs_reachable hr k
  rwa [ht] at this

theorem runs_ends {cap : Option Nat} {i b : Nat} (ms : List Micro) : ∀ {w w' : World}, Solo cap w ms → Runs w ms w' →
    (∀ m ∈ ms, m.ends = true) → w.objs[i]? = some (.mailbox b) → Keeps i b w w' := by
  induction ms with
  | nil => intro w w' _ hr _ _; rw [runs_nil hr]; exact .refl ..
  | cons m ms ih =>
    intro w w' hs hr hm hi
    obtain ⟨w1, ns, he, hs1, hr1⟩ := hs.exec hr
    have hend := hm m (by simp)
    have hrest : ∀ x ∈ ms, x.ends = true := fun x hx => hm x (by simp [hx])
    have hrcv := hs.rcv
    have hrefs := hs.refs b
    have h1 := le_sumBy oRcv hi
    have h2 := le_sumBy (oBq b) hi
    simp [oRcv] at h1
    simp [oBq, is1] at h2
    have key : ns = [] ∧ Keeps i b w w1 := by
      cases he <;> simp [Micro.ends] at hend
      case dropRx_last h => simp [mRcv] at hrcv; omega
      case dropRx_more => exact ⟨rfl, rfl, rfl, rfl, rfl, rfl, rfl, rfl, rfl⟩
      case dropBq b' =>
        refine ⟨rfl, by simp, by simp, by simp, by simp, by simp, by simp, ?_, by simp⟩
        rw [decBq_items]
        by_cases hb : b = b'
        · subst hb
          simp [mBq, is1] at hrefs
          rw [if_neg]; omega
        · simp [hb]
      all_goals exact ⟨rfl, rfl, rfl, rfl, rfl, rfl, rfl, rfl, rfl⟩
    obtain ⟨rfl, hk⟩ := key
    exact hk.trans (ih hs1 hr1 hrest (by rw [hk.obj]; exact hi))

theorem handles_keeps {cap : Option Nat} {i b : Nat} {w w' : World} {c : Call} (hq : Quiet cap w) (hc : c.handles = true)
    (hi : w.objs[i]? = some (.mailbox b)) (hd : Does w c w') : Keeps i b w w' := by
  obtain ⟨w1, ms, hc1, hm⟩ := hd
  have hs := hq.call hc1
  have hcr := call_rel hc1
  have key : (∀ m ∈ ms, m.ends = true) ∧ Keeps i b w w1 := by
    have hne : ∀ {o : Nat} {x y : Obj}, w.objs[o]? = some x → x ≠ .mailbox b → (w.objs.set o y)[i]? = w.objs[i]? := by
      intro o x y h1 h2
      have : o ≠ i := by rintro rfl; rw [hi] at h1; simp at h1; exact h2 h1.symm
      rw [List.getElem?_set_ne this]
    cases hcr <;> simp [Call.handles] at hc <;>
      exact ⟨by simp [Micro.ends], rfl, rfl, rfl, rfl, rfl, rfl, rfl, hne (by assumption) (by simp)⟩
  exact key.2.trans (runs_ends ms hs hm key.1 (by rw [key.2.obj]; exact hi))

theorem perm_shift {m x : Msg} {a a' b b' : List Msg} (h1 : a.Perm (m :: a')) (h2 : (x :: b').Perm b)
    {c : List Msg} (h3 : c.Perm (x :: a')) : (m :: (c ++ b')).Perm (a ++ b) := by
  refine (List.Perm.cons m (h3.append_right b')).trans ((List.Perm.cons m ?_).trans (h1.symm.append h2))
  exact List.perm_middle.symm

/-- What a fresh receive that completes at once does. -/
structure RecvStep (i b : Nat) (w : World) (am : AMsg) (w' : World) : Prop where
  obj : w'.objs[i]? = w.objs[i]?
  sc : w'.sc = w.sc
  cap : w'.cap = w.cap
  one : ∀ x ∈ parkedMsgs w'.ws w'.wOne, x ∈ parkedMsgs w.ws w.wOne
  all : ∀ x ∈ parkedMsgs w'.ws w'.wAll, x ∈ parkedMsgs w.ws w.wAll
  out : (∃ m, am = .one m ∧ (∀ x ∈ w.uq, x.prio ≤ m.prio) ∧ (∀ x ∈ w.items b, x.prio ≤ m.prio) ∧
      (m :: w'.pU).Perm w.pU ∧ w'.pB b = w.pB b ∧ m ∈ w.uq) ∨
    (∃ m, am = .all m ∧ (∀ x ∈ w.uq, x.prio ≤ m.prio) ∧ (∀ x ∈ w.items b, x.prio ≤ m.prio) ∧
      (m :: w'.pB b).Perm (w.pB b) ∧ w'.pU = w.pU ∧ m ∈ w.items b) ∨
    (am = .shutdown ∧ w.uq = [] ∧ w.items b = [] ∧ w.sc = 0 ∧ w'.pU = w.pU ∧ w'.pB b = w.pB b ∧
      w'.uq = [] ∧ w'.items b = [])

theorem exec_recvStep {cap : Option Nat} {i r b wk : Nat} {w w' : World} {ms : List Micro} {am : AMsg}
    (h : ExecR w (.recvTry r b wk) w' ms) (hs : Solo cap w [.recvTry r b wk]) (hne : r ≠ i)
    (hi : w.objs[i]? = some (.mailbox b)) (hy : w'.log.head? = some (.recv r b am)) (hwork : ¬ (w.uq = [] ∧ w.items b = [] ∧ w.sc ≠ 0)) :
    RecvStep i b w am w' ∧ ms = [] := by
  refine ⟨?_, by cases h <;> first | rfl | (exact absurd ⟨by assumption, by assumption, hs.wait (by simp [mShutRx]) (by assumption)⟩ hwork)⟩
  have hu := hs.uInv
  have hb := hs.bInv
  have hreg := hs.regWs
  have hnd := List.nodup_append.mp hreg.nodup
  obtain ⟨th, t, hrch, -⟩ := hs.reach
  have hbo : BqsOk w := bqsOk_reachable hrch
  cases h with
  | recv_all hp h1 h2 =>
    rename_i m w1
    obtain ⟨a1, a2⟩ := head_max (hb.heap b) h1
    have hm : am = .all m := by simpa [World.yieldMsg, World.ev, eq_comm] using hy
    have ham : ∀ x ∈ w.uq, x.prio ≤ m.prio := by
      intro x hx
      cases hq : w.uq.head? with
      | none => rw [List.head?_eq_none_iff] at hq; rw [hq] at hx; simp at hx
      | some u =>
        obtain ⟨-, a4⟩ := head_max hu.heap hq
        exact prio_le_trans (a4 x hx) (Prio.blt_iff.mp (h2 u hq)).1
    have hlive : w.mailboxLive b := ⟨_, List.mem_of_getElem? hi, by simp [Obj.holdsMailbox]⟩
    have hal := mailboxLive_alive hrch hlive
    have hmem : b ∈ w.bqs := by
      rcases bAll_reachable hrch b hal with h | h
      · exact h
      · exact absurd h (mailboxLive_rcv hrch hlive)
    obtain ⟨q, hq, hc⟩ := popBroadcast_cases hreg.all hp
    have hpp := Heap.pop_perm hq
    have hine : w.items b ≠ [] := by intro h; rw [h] at a1; simp at a1
    have hitq : ∀ w2 : World, w2.bq = (w.afterPop b q).bq → w2.items b = q := fun w2 h => by
      rw [items_congr h, afterPop_items hine]; simp
    have hko : (w1.yieldMsg r b (.all m)).objs[i]? = w.objs[i]? := by
      simp [World.popBroadcast_objs hp, List.getElem?_set_ne hne]
    have hU : parkedMsgs w1.ws w1.wOne = parkedMsgs w.ws w.wOne ∧
        (∀ x ∈ parkedMsgs w1.ws w1.wAll, x ∈ parkedMsgs w.ws w.wAll) ∧
        (m :: (w1.items b ++ parkedMsgs w1.ws w1.wAll)).Perm (w.items b ++ parkedMsgs w.ws w.wAll) := by
      have hws : (w.afterPop b q).ws = w.ws := by unfold World.afterPop; split <;> rfl
      have hwo : (w.afterPop b q).wOne = w.wOne := by unfold World.afterPop; split <;> rfl
      have hwa : (w.afterPop b q).wAll = w.wAll := by unfold World.afterPop; split <;> rfl
      obtain ⟨-, rfl⟩ | ⟨-, hg, rfl⟩ | ⟨-, h', wk', m', q', t', rfl⟩ := hc
      · rw [hws, hwo, hwa, hitq _ rfl]
        exact ⟨rfl, fun x h => h, hpp.symm.append_right _⟩
      · have hI : ({ w.afterPop b q with wAll := [] } : World).items b = q := hitq _ rfl
        rw [hI]
        simp only [hws, hwo]
        rw [parkedMsgs_gone hg]
        refine ⟨by trivial, fun x h => by simp [parkedMsgs] at h, ?_⟩
        simpa [parkedMsgs] using hpp.symm
      · have hno : h' ∉ w.wOne := fun hx => hnd.2.2 h' hx h' t'.mem rfl
        have htk := parkedMsgs_takes t' hnd.2.1
        refine ⟨?_, ?_, ?_⟩
        · simp only [World.sendBroadcast, hwo]; exact parkedMsgs_set hno
        · intro x hx
          exact htk.mem_iff.mp (by simp [World.sendBroadcast] at hx; simp [hx])
        · have hal2 : ({ w.afterPop b q with ws := w.ws.set h' (.delivered wk'), wAll := q' } : World).alive b = true := by
            rw [show ({ w.afterPop b q with ws := w.ws.set h' (.delivered wk'), wAll := q' } : World).alive b =
              (w.afterPop b q).alive b from rfl, alive_congr (afterPop_refs w b q b)]; exact hal
          have hbqs : ({ w.afterPop b q with ws := w.ws.set h' (.delivered wk'), wAll := q' } : World).bqs = w.bqs := by
            show (w.afterPop b q).bqs = _; unfold World.afterPop; split <;> rfl
          have hI : ({ w.afterPop b q with ws := w.ws.set h' (.delivered wk'), wAll := q' } : World).items b = q := hitq _ rfl
          rw [sendBroadcast_items _ _ (by rw [hbqs]; exact hbo.nodup), if_pos ⟨by rw [hbqs]; exact hmem, hal2⟩,
            hI]
          simp only [World.sendBroadcast]
          exact perm_shift hpp htk (Heap.push_perm Msg.le q m')
    refine ⟨hko, by simp [World.popBroadcast_sc hp], by simp [World.popBroadcast_cap hp], ?_, ?_, ?_⟩
    · intro x hx; rw [← hU.1]; simpa using hx
    · intro x hx; exact hU.2.1 x (by simpa using hx)
    · refine .inr (.inl ⟨m, hm, ham, a2, ?_, ?_, a1⟩)
      · simpa [World.pB, items_congr (w' := w1.yieldMsg r b (.all m)) (w := w1) (by simp)] using hU.2.2
      · simp [World.pU, World.popBroadcast_uq hp, hU.1]
  | recv_one hp h1 h2 =>
    rename_i m w1
    obtain ⟨a1, a2⟩ := head_max hu.heap h1
    have hm : am = .one m := by simpa [World.yieldMsg, World.ev, eq_comm] using hy
    have ham : ∀ x ∈ w.items b, x.prio ≤ m.prio := by
      intro x hx
      cases hq : (w.items b).head? with
      | none => rw [List.head?_eq_none_iff] at hq; rw [hq] at hx; simp at hx
      | some u =>
        obtain ⟨-, a4⟩ := head_max (hb.heap b) hq
        exact prio_le_trans (a4 x hx) (h2 u hq)
    obtain ⟨q, hq, hc⟩ := popUnicast_cases hreg.one hp
    have hpp := Heap.pop_perm hq
    have hit : (w1.yieldMsg r b (.one m)).items b = w.items b := items_congr (by simp [World.popUnicast_bq hp]) b
    have hU : parkedMsgs w1.ws w1.wAll = parkedMsgs w.ws w.wAll ∧
        (∀ x ∈ parkedMsgs w1.ws w1.wOne, x ∈ parkedMsgs w.ws w.wOne) ∧
        (m :: (w1.uq ++ parkedMsgs w1.ws w1.wOne)).Perm (w.uq ++ parkedMsgs w.ws w.wOne) := by
      obtain ⟨-, rfl⟩ | ⟨-, hg, rfl⟩ | ⟨-, h', wk', m', q', t', rfl⟩ := hc
      · exact ⟨rfl, fun x h => h, hpp.symm.append_right _⟩
      · simp only
        rw [parkedMsgs_gone hg]
        refine ⟨by trivial, fun x h => by simp [parkedMsgs] at h, ?_⟩
        simpa [parkedMsgs] using hpp.symm
      · have hno : h' ∉ w.wAll := fun hx => hnd.2.2 h' t'.mem h' hx rfl
        have htk := parkedMsgs_takes t' hnd.1
        refine ⟨parkedMsgs_set hno, ?_, ?_⟩
        · intro x hx
          exact htk.mem_iff.mp (by simp at hx; simp [hx])
        · exact perm_shift hpp htk (Heap.push_perm Msg.le q m')
    refine ⟨by simp [World.popUnicast_objs hp, List.getElem?_set_ne hne], by simp [World.popUnicast_sc hp],
      by simp [World.popUnicast_cap hp], ?_, ?_, ?_⟩
    · intro x hx; exact hU.2.1 x (by simpa using hx)
    · intro x hx; rw [← hU.1]; simpa using hx
    · refine .inl ⟨m, hm, a2, ham, ?_, ?_, a1⟩
      · simpa [World.pU] using hU.2.2
      · simp only [World.pB, hit]; simp [hU.1]
  | recv_shutdown h1 h2 h3 =>
    have hm : am = .shutdown := by simpa [World.yieldMsg, World.ev, eq_comm] using hy
    exact ⟨by simp [List.getElem?_set_ne hne], rfl, rfl, fun x h => h, fun x h => h,
      .inr (.inr ⟨hm, h1, h2, h3, rfl, rfl, h1, h2⟩)⟩
  | recv_wait h1 h2 h3 => exact absurd ⟨h1, h2, hs.wait (by simp [mShutRx]) h3⟩ hwork

theorem Keeps.recvStep {i b : Nat} {w w1 w2 : World} {am : AMsg} (k : Keeps i b w w1) (s : RecvStep i b w1 am w2) :
    RecvStep i b w am w2 := by
  refine ⟨s.obj.trans k.obj, s.sc.trans k.sc, s.cap.trans k.cap, ?_, ?_, ?_⟩
  · have := s.one; rwa [k.ws, k.wOne] at this
  · have := s.all; rwa [k.ws, k.wAll] at this
  · have := s.out; rwa [k.uq, k.items, k.pU, k.pB, k.sc] at this

/-- A fresh receive that completes at once. -/
theorem receive_step {cap : Option Nat} {i b wk : Nat} {w w1 w2 : World} {am : AMsg} (hq : Quiet cap w)
    (hi : w.objs[i]? = some (.mailbox b)) (h1 : Does w (.next i) w1) (h2 : Does w1 (.pollRecv w.objs.length wk) w2)
    (hy : w2.yielded w.objs.length b am) : RecvStep i b w am w2 := by
  have hil := (List.getElem?_eq_some_iff.mp hi).1
  have hq1 := hq.does h1
  have hn : Keeps i b w w1 ∧ w1.objs[w.objs.length]? = some (.recv b .new) := by
    obtain ⟨w0, ms, hc, hm⟩ := h1
    have hcr := call_rel hc
    simp only [Xtra.call, hi] at hc
    simp [Obj.mbox] at hc; obtain ⟨rfl, rfl⟩ := hc
    have := runs_nil hm; subst this
    refine ⟨⟨by simp, by simp, by simp, by simp, by simp, by simp, (callR_bqs hcr).2.2 b, ?_⟩, ?_⟩
    · simp [World.addObj, List.getElem?_append_left hil]
    · simp [World.addObj]
  obtain ⟨k1, ho⟩ := hn
  have hl1 := (List.getElem?_eq_some_iff.mp ho).1
  refine k1.recvStep ?_
  have hi1 : w1.objs[i]? = some (.mailbox b) := by rw [k1.obj]; exact hi
  have hne : w.objs.length ≠ i := by omega
  obtain ⟨w0, ms, hc, hm⟩ := h2
  have hc0 := hc
  simp only [Xtra.call, ho] at hc
  simp at hc; obtain ⟨rfl, rfl⟩ := hc
  have hs := hq1.call hc0
  have k2 : Keeps i b w1 (w1.setObj w.objs.length .busy) :=
    ⟨rfl, rfl, rfl, rfl, rfl, rfl, rfl, by simp [World.setObj, List.getElem?_set_ne hne]⟩
  refine k2.recvStep ?_
  have hwork : ¬ ((w1.setObj w.objs.length .busy).uq = [] ∧ (w1.setObj w.objs.length .busy).items b = [] ∧
      (w1.setObj w.objs.length .busy).sc ≠ 0) := by
    rintro ⟨a1, a2, a3⟩
    rcases runs_recvTry hs hm with ⟨m, h1, -⟩ | ⟨m, h1, -⟩ | ⟨-, -, h3, -⟩ | ⟨-, -, -, ⟨⟨c, h4⟩, -⟩⟩
    · rw [a1] at h1; simp at h1
    · rw [a2] at h1; simp at h1
    · exact a3 h3
    · rw [hy.1] at h4; simp at h4
  obtain ⟨w3, ns, he, hs3, hr3⟩ := hs.exec hm
  have hns : ns = [] := by
    cases he <;> first | rfl | (exact absurd ⟨by assumption, by assumption, hs.wait (by simp [mShutRx]) (by assumption)⟩ hwork)
  subst hns
  have := runs_nil hr3; subst this
  exact (exec_recvStep he hs hne (by rw [k2.obj]; exact hi1) hy.2 hwork).1

/-- The counterpart: with something queued or no strong address, a receive does complete. -/
theorem receive_exists {cap : Option Nat} {i b : Nat} {w : World} (wk : Nat) (hq : Quiet cap w)
    (hi : w.objs[i]? = some (.mailbox b)) (hw : w.uq ≠ [] ∨ w.items b ≠ [] ∨ w.sc = 0) :
    ∃ w1 w2 am, Does w (.next i) w1 ∧ Does w1 (.pollRecv w.objs.length wk) w2 ∧ w2.yielded w.objs.length b am := by
  have hil := (List.getElem?_eq_some_iff.mp hi).1
  have hc : Xtra.call w (.next i) = some ((({ w with rcv := w.rcv + 1 } : World).incBq b).addObj (.recv b .new), []) := by
    simp [Xtra.call, hi, Obj.mbox]
  have h1 : Does w (.next i) _ := ⟨_, _, hc, .nil⟩
  have hq1 := hq.does h1
  have hcr := call_rel hc
  generalize hw1 : (({ w with rcv := w.rcv + 1 } : World).incBq b).addObj (.recv b .new) = w1 at *
  have ho : w1.objs[w.objs.length]? = some (.recv b .new) := by rw [← hw1]; simp [World.addObj]
  obtain ⟨w2, hr⟩ := runs_total (w1.setObj w.objs.length .busy) [.recvTry w.objs.length b wk]
  have h2 : Does w1 (.pollRecv w.objs.length wk) w2 := ⟨_, _, by simp [Xtra.call, ho], hr⟩
  obtain ⟨am, hy⟩ := (C20_one_poll_iff_work hq1 ho h2).1 (by
    rcases hw with h | h | h
    · left; rw [← hw1]; simpa using h
    · right; left; rw [(callR_bqs hcr).2.2 b]; exact h
    · right; right; left; rw [← hw1]; simpa using h)
  exact ⟨w1, w2, am, h1, h2, hy⟩

end Xtra
