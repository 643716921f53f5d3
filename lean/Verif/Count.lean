import Verif.Own2
/-! Reference counts: strong count, mailbox count, broadcast-queue references. -/

set_option linter.unusedSimpArgs false

namespace Xtra

/-- 1 for strong policies. -/
def Rc.cnt : Rc → Nat
  | .strong => 1
  | .weak => 0
  | .eitherStrong => 1
  | .eitherWeak => 0

theorem Rc.cnt_strong {rc : Rc} (h : rc.isStrong = true) : rc.cnt = 1 := by
  cases rc <;> simp_all [Rc.cnt, Rc.isStrong]
theorem Rc.cnt_weak {rc : Rc} (h : rc.isStrong = false) : rc.cnt = 0 := by
  cases rc <;> simp_all [Rc.cnt, Rc.isStrong]
theorem Rc.cnt_eq (rc : Rc) : rc.cnt = if rc.isStrong then 1 else 0 := by
  cases rc <;> simp [Rc.cnt, Rc.isStrong]
theorem Rc.isStrong_toEither (rc : Rc) : rc.toEither.isStrong = rc.isStrong := by
  cases rc <;> rfl
theorem Rc.cnt_toEither (rc : Rc) : rc.toEither.cnt = rc.cnt := by
  cases rc <;> rfl

def sStrong : Sending → Nat
  | .new _ rc => rc.cnt
  | _ => 0

/-- Strong references an object holds: a strong address, an `Either` address wrapping a strong one,
or a not yet polled send future made from one. -/
def oStrong : Obj → Nat
  | .addr rc => rc.cnt
  | .send _ _ s => sStrong s
  | _ => 0

/-- Strong references held by a running call. -/
def mStrong : Micro → Nat
  | .sendLd1 _ _ _ rc _ => rc.cnt
  | .sendLd2 _ _ _ rc _ => rc.cnt
  | .sendCrit _ _ _ rc _ => rc.cnt
  | .dropTx rc => rc.cnt
  | _ => 0

theorem callR_strong {w w' : World} {c : Call} {ms : List Micro} (h : CallR w c w' ms) :
    w'.sc + sumBy oStrong w.objs = w.sc + sumBy oStrong w'.objs + sumBy mStrong ms := by
  have key : ∀ f x y, w.objs[f]? = some x →
      sumBy oStrong (w.objs.set f y) + oStrong x = sumBy oStrong w.objs + oStrong y :=
    fun f x y h => sumBy_set _ y h
  cases h <;> simp [mStrong, oStrong, sStrong, World.addTx, Rc.cnt_eq] <;>
    grind [mStrong, oStrong, sStrong, Rc.cnt_eq, Rc.isStrong, Rc.isStrong_toEither]

theorem execR_strong {w w' : World} {m : Micro} {ms : List Micro} (h : ExecR w m w' ms) (hwf : WF w m)
    (hm : mStrong m ≤ w.sc) :
    w'.sc + sumBy oStrong w.objs + mStrong m = w.sc + sumBy oStrong w'.objs + sumBy mStrong ms := by
  have key : ∀ f x y, w.objs[f]? = some x →
      sumBy oStrong (w.objs.set f y) + oStrong x = sumBy oStrong w.objs + oStrong y :=
    fun f x y h => sumBy_set _ y h
  cases h
  case recv_all hp _ _ =>
    simp only [WF] at hwf
    have h3 := fun a b => key _ _ (.message a b) hwf
    simp [mStrong, World.popBroadcast_objs hp, World.popBroadcast_sc hp, oStrong] at h3 ⊢; rw [h3]
  case recv_one hp _ _ =>
    simp only [WF] at hwf
    have h3 := fun a b => key _ _ (.message a b) hwf
    simp [mStrong, World.popUnicast_objs hp, World.popUnicast_sc hp, oStrong] at h3 ⊢; rw [h3]
  case recvBcast_some hp =>
    simp only [WF] at hwf
    have h3 := fun a b => key _ _ (.message a b) hwf.1
    simp [mStrong, World.popBroadcast_objs hp, World.popBroadcast_sc hp, oStrong] at h3 ⊢; rw [h3]
  case shutRx => simp [mStrong, sumBy_map, sumBy_eq_zero]
  all_goals simp only [WF] at hwf
  all_goals (simp [mStrong, oStrong, sStrong] <;>
    grind [mStrong, oStrong, sStrong, Rc.cnt_strong, Rc.cnt_weak])

theorem sc_reachable {cap : Option Nat} {s : Sys} (h : Reachable cap s) :
    s.w.sc = sumBy oStrong s.w.objs + tot mStrong s.th := by
  refine Reachable.inv (P := fun s => s.w.sc = sumBy oStrong s.w.objs + tot mStrong s.th) ?_ ?_ ?_ h
  · simp [init, oStrong, Rc.cnt]
  · intro s c w' ms _ ho hc
    have := callR_strong hc; simp; omega
  · intro s t m rest w' ms hr ho ht he
    have h0 := tot_head mStrong ht
    have h1 := execR_strong he (wf_reachable hr ht) (by omega)
    have h3 := tot_exec mStrong ms ht; simp only at *; omega

/-- Mailbox references an object holds. -/
def oRcv : Obj → Nat
  | .mailbox _ => 1
  | .recv _ _ => 1
  | .message _ _ => 1
  | .dispatch _ _ _ => 1
  | _ => 0

/-- Mailbox references held by a running call. -/
def mRcv : Micro → Nat
  | .recvTry _ _ _ => 1
  | .recvPoll _ _ _ _ => 1
  | .recvBcast _ _ _ _ => 1
  | .cancel _ _ => 1
  | .dropRx => 1
  | .newBq _ => 1
  | _ => 0

theorem callR_rcv {w w' : World} {c : Call} {ms : List Micro} (h : CallR w c w' ms) :
    w'.rcv + sumBy oRcv w.objs = w.rcv + sumBy oRcv w'.objs + sumBy mRcv ms := by
  have key : ∀ f x y, w.objs[f]? = some x →
      sumBy oRcv (w.objs.set f y) + oRcv x = sumBy oRcv w.objs + oRcv y :=
    fun f x y h => sumBy_set _ y h
  cases h <;> simp [mRcv, oRcv] <;> grind [mRcv, oRcv]

theorem execR_rcv {w w' : World} {m : Micro} {ms : List Micro} (h : ExecR w m w' ms) (hwf : WF w m)
    (hm : mRcv m ≤ w.rcv) :
    w'.rcv + sumBy oRcv w.objs + mRcv m = w.rcv + sumBy oRcv w'.objs + sumBy mRcv ms := by
  have key : ∀ f x y, w.objs[f]? = some x →
      sumBy oRcv (w.objs.set f y) + oRcv x = sumBy oRcv w.objs + oRcv y :=
    fun f x y h => sumBy_set _ y h
  cases h
  case recv_all hp _ _ =>
    simp only [WF] at hwf
    have h3 := fun a b => key _ _ (.message a b) hwf
    simp [mRcv, World.popBroadcast_objs hp, World.popBroadcast_rcv hp, oRcv] at h3 ⊢; rw [h3]; omega
  case recv_one hp _ _ =>
    simp only [WF] at hwf
    have h3 := fun a b => key _ _ (.message a b) hwf
    simp [mRcv, World.popUnicast_objs hp, World.popUnicast_rcv hp, oRcv] at h3 ⊢; rw [h3]; omega
  case recvBcast_some hp =>
    simp only [WF] at hwf
    have h3 := fun a b => key _ _ (.message a b) hwf.1
    simp [mRcv, World.popBroadcast_objs hp, World.popBroadcast_rcv hp, oRcv] at h3 ⊢; rw [h3]; omega
  case recvPoll_panic hc =>
    simp only [WF] at hwf
    obtain ⟨x, h1, h2, h3⟩ := hwf.2
    rw [h1] at hc; simp [h2, h3] at hc
  case shutRx => simp [mRcv, sumBy_map, sumBy_eq_zero]
  all_goals simp only [WF] at hwf
  all_goals (simp [mRcv, oRcv] <;> grind [mRcv, oRcv])

theorem rcv_reachable {cap : Option Nat} {s : Sys} (h : Reachable cap s) :
    s.w.rcv = sumBy oRcv s.w.objs + tot mRcv s.th := by
  refine Reachable.inv (P := fun s => s.w.rcv = sumBy oRcv s.w.objs + tot mRcv s.th) ?_ ?_ ?_ h
  · simp [init, oRcv]
  · intro s c w' ms _ ho hc
    have := callR_rcv hc; simp; omega
  · intro s t m rest w' ms hr ho ht he
    have h0 := tot_head mRcv ht
    have h1 := execR_rcv he (wf_reachable hr ht) (by omega)
    have h3 := tot_exec mRcv ms ht; simp only at *; omega

/-! ### zero is absorbing -/

theorem callR_sc_zero {w w' : World} {c : Call} {ms : List Micro} (h : CallR w c w' ms)
    (hc : sumBy oStrong w.objs ≤ w.sc) (h0 : w.sc = 0) : w'.sc = 0 := by
  have key : ∀ {f : Nat} {rc : Rc}, w.objs[f]? = some (.addr rc) → rc.isStrong = false := by
    intro f rc h
    have := le_sumBy oStrong h
    simp only [oStrong, Rc.cnt_eq] at this
    cases hr : rc.isStrong with
    | false => rfl
    | true => simp [hr] at this; omega
  cases h <;> simp_all [World.addTx] <;> grind

theorem execR_sc_zero {w w' : World} {m : Micro} {ms : List Micro} (h : ExecR w m w' ms)
    (h0 : w.sc = 0) : w'.sc = 0 := by
  cases h
  case recv_all hp _ _ => simp [World.popBroadcast_sc hp, h0]
  case recv_one hp _ _ => simp [World.popUnicast_sc hp, h0]
  case recvBcast_some hp => simp [World.popBroadcast_sc hp, h0]
  all_goals simp [h0]

theorem callR_rcv_zero {w w' : World} {c : Call} {ms : List Micro} (h : CallR w c w' ms)
    (hc : sumBy oRcv w.objs ≤ w.rcv) (h0 : w.rcv = 0) : w'.rcv = 0 := by
  have key : ∀ {f : Nat} {o : Obj} {b : Nat}, w.objs[f]? = some o → o.mbox = some b → False := by
    intro f o b h hb
    have := le_sumBy oRcv h
    cases o <;> simp [Obj.mbox] at hb <;> simp [oRcv] at this <;> omega
  cases h <;> simp_all <;> grind

theorem execR_rcv_zero {w w' : World} {m : Micro} {ms : List Micro} (h : ExecR w m w' ms)
    (h0 : w.rcv = 0) : w'.rcv = 0 := by
  cases h
  case recv_all hp _ _ => simp [World.popBroadcast_rcv hp, h0]
  case recv_one hp _ _ => simp [World.popUnicast_rcv hp, h0]
  case recvBcast_some hp => simp [World.popBroadcast_rcv hp, h0]
  all_goals simp [h0]

end Xtra
