import Verif.RespInv
/-! Every future resolves at most once. -/

set_option linter.unusedSimpArgs false

namespace Xtra

/-- Weight of the object in slot `i`. -/
def atL (g : Obj → Nat) (objs : List Obj) (i : Nat) : Nat :=
  match objs[i]? with
  | some o => g o
  | none => 0

theorem atL_set (g : Obj → Nat) {objs : List Obj} {f : Nat} {x : Obj} (h : objs[f]? = some x) (y : Obj) (i : Nat) :
    atL g (objs.set f y) i = if f = i then g y else atL g objs i := by
  unfold atL
  by_cases hk : f = i
  · subst hk
    rw [List.getElem?_set_self (by exact (List.getElem?_eq_some_iff.mp h).1)]
    simp
  · rw [List.getElem?_set_ne hk]; simp [hk]

theorem atL_at (g : Obj → Nat) {objs : List Obj} {f : Nat} {x : Obj} (h : objs[f]? = some x) : atL g objs f = g x := by
  unfold atL; rw [h]

theorem atL_append (g : Obj → Nat) {objs : List Obj} (y : Obj) (i : Nat) :
    atL g (objs ++ [y]) i = atL g objs i + (if objs.length = i then g y else 0) := by
  unfold atL
  by_cases hk : i < objs.length
  · rw [List.getElem?_append_left hk]
    have : objs.length ≠ i := by omega
    simp [this]
  · rw [List.getElem?_append_right (by omega)]
    have hn : objs[i]? = none := by simp; omega
    rw [hn]
    by_cases he : objs.length = i
    · subst he; simp
    · have : [y][i - objs.length]? = none := by simp; omega
      rw [this]; simp [he]

def oGone : Obj → Nat
  | .gone => 1
  | _ => 0

/-- A future in this slot has resolved. -/
def oDone : Obj → Nat
  | .gone | .reply _ | .message _ _ | .dispatch _ _ _ => 1
  | _ => 0

/-- The slot's reply was observed, or it failed. -/
def evFin (f : Nat) : Ev → Nat
  | .sendErr g _ => n1 f g
  | .replyOk g _ _ => n1 f g
  | .replyInt g _ => n1 f g
  | .prioPanic g _ => n1 f g
  | _ => 0

/-- The queueing stage of the slot's send, or its receive, resolved. -/
def evAcc (f : Nat) : Ev → Nat
  | .sendErr g _ => n1 f g
  | .sendOk g _ => n1 f g
  | .recv g _ _ => n1 f g
  | _ => 0

theorem lateLog_sum (g : Ev → Nat) (hg : ∀ j, g (.late j) = 0) (w : World) (m : Msg) :
    sumBy g (w.lateLog m) = sumBy g w.log := by
  unfold World.lateLog; split <;> simp [hg]

theorem execR_fin {w w' : World} {m : Micro} {ms : List Micro} (h : ExecR w m w' ms) (hwf : WF w m)
    (r : RegWs w.ws w.wOne w.wAll) (f : Nat) :
    sumBy (evFin f) w'.log + atL oGone w.objs f ≤ sumBy (evFin f) w.log + atL oGone w'.objs f := by
  have kx : ∀ i, atL oGone w.objs i ≤ 1 := by
    intro i; unfold atL; split
    · rename_i o _; cases o <;> simp [oGone]
    · simp
  have key : ∀ g x y, w.objs[g]? = some x → 
      atL oGone (w.objs.set g y) f = if g = f then oGone y else atL oGone w.objs f :=
    fun g x y h => atL_set oGone h y f
  have ka : ∀ g x, w.objs[g]? = some x → atL oGone w.objs g = oGone x :=
    fun g x h => atL_at oGone h
  have kl := lateLog_sum (evFin f) (fun _ => rfl) w
  cases h
  case shutTx => simp [shutTx_drops (evFin f) (fun _ => rfl)]
  case recv_all hp _ _ =>
    simp only [WF] at hwf
    simp [World.popBroadcast_objs hp, popBroadcast_ev (evFin f) (by intros; rfl) r hp]
    grind [evFin, oGone]
  case recvBcast_some hp =>
    simp only [WF] at hwf
    simp [World.popBroadcast_objs hp, popBroadcast_ev (evFin f) (by intros; rfl) r hp]
    grind [evFin, oGone]
  case recv_one hp _ _ =>
    simp only [WF] at hwf
    simp [World.popUnicast_objs hp, World.popUnicast_log hp]
    grind [evFin, oGone]
  case critAll_sent => simp [World.sendBroadcast, evFin, kl]
  case bcastShutdown => simp [World.sendBroadcast, evFin]
  all_goals simp only [WF] at hwf
  all_goals simp [evFin, kl]
  all_goals grind [evFin, oGone, n1]

theorem callR_fin {w w' : World} {c : Call} {ms : List Micro} (h : CallR w c w' ms) (f : Nat) :
    sumBy (evFin f) w'.log + atL oGone w.objs f ≤ sumBy (evFin f) w.log + atL oGone w'.objs f := by
  have kx : ∀ i, atL oGone w.objs i ≤ 1 := by
    intro i; unfold atL; split
    · rename_i o _; cases o <;> simp [oGone]
    · simp
  have key : ∀ g x y, w.objs[g]? = some x → 
      atL oGone (w.objs.set g y) f = if g = f then oGone y else atL oGone w.objs f :=
    fun g x y h => atL_set oGone h y f
  have ka : ∀ g x, w.objs[g]? = some x → atL oGone w.objs g = oGone x :=
    fun g x h => atL_at oGone h
  cases h <;> simp [evFin, atL_append oGone, oGone] <;> grind [evFin, oGone, n1]

theorem fin_reachable {cap : Option Nat} {s : Sys} (h : Reachable cap s) (f : Nat) :
    sumBy (evFin f) s.w.log ≤ atL oGone s.w.objs f := by
  refine Reachable.inv (P := fun s => sumBy (evFin f) s.w.log ≤ atL oGone s.w.objs f) ?_ ?_ ?_ h
  · simp [init]
  · intro s c w' ms hr ih hc
    have := callR_fin hc f; simp only at *; omega
  · intro s t m rest w' ms hr ih ht he
    have := execR_fin he (wf_reachable hr ht) (regWs_reachable hr) f; simp only at *; omega

theorem execR_acc {w w' : World} {m : Micro} {ms : List Micro} (h : ExecR w m w' ms) (hwf : WF w m)
    (r : RegWs w.ws w.wOne w.wAll) (f : Nat) :
    sumBy (evAcc f) w'.log + atL oDone w.objs f ≤ sumBy (evAcc f) w.log + atL oDone w'.objs f := by
  have kx : ∀ i, atL oDone w.objs i ≤ 1 := by
    intro i; unfold atL; split
    · rename_i o _; cases o <;> simp [oDone]
    · simp
  have key : ∀ g x y, w.objs[g]? = some x → 
      atL oDone (w.objs.set g y) f = if g = f then oDone y else atL oDone w.objs f :=
    fun g x y h => atL_set oDone h y f
  have ka : ∀ g x, w.objs[g]? = some x → atL oDone w.objs g = oDone x :=
    fun g x h => atL_at oDone h
  have kl := lateLog_sum (evAcc f) (fun _ => rfl) w
  cases h
  case shutTx => simp [shutTx_drops (evAcc f) (fun _ => rfl)]
  case recv_all hp _ _ =>
    simp only [WF] at hwf
    simp [World.popBroadcast_objs hp, popBroadcast_ev (evAcc f) (by intros; rfl) r hp]
    grind [evAcc, oDone, n1]
  case recvBcast_some hp =>
    simp only [WF] at hwf
    simp [World.popBroadcast_objs hp, popBroadcast_ev (evAcc f) (by intros; rfl) r hp]
    grind [evAcc, oDone, n1]
  case recv_one hp _ _ =>
    simp only [WF] at hwf
    simp [World.popUnicast_objs hp, World.popUnicast_log hp]
    grind [evAcc, oDone, n1]
  case critAll_sent => simp [World.sendBroadcast, evAcc, kl]
  case bcastShutdown => simp [World.sendBroadcast, evAcc]
  all_goals simp only [WF] at hwf
  all_goals simp [evAcc, kl]
  all_goals grind [evAcc, oDone, n1]

theorem callR_acc {w w' : World} {c : Call} {ms : List Micro} (h : CallR w c w' ms) (f : Nat) :
    sumBy (evAcc f) w'.log + atL oDone w.objs f ≤ sumBy (evAcc f) w.log + atL oDone w'.objs f := by
  have kx : ∀ i, atL oDone w.objs i ≤ 1 := by
    intro i; unfold atL; split
    · rename_i o _; cases o <;> simp [oDone]
    · simp
  have key : ∀ g x y, w.objs[g]? = some x → 
      atL oDone (w.objs.set g y) f = if g = f then oDone y else atL oDone w.objs f :=
    fun g x y h => atL_set oDone h y f
  have ka : ∀ g x, w.objs[g]? = some x → atL oDone w.objs g = oDone x :=
    fun g x h => atL_at oDone h
  cases h <;> simp [evAcc, atL_append oDone, oDone] <;> grind [evAcc, oDone, n1]

theorem acc_reachable {cap : Option Nat} {s : Sys} (h : Reachable cap s) (f : Nat) :
    sumBy (evAcc f) s.w.log ≤ atL oDone s.w.objs f := by
  refine Reachable.inv (P := fun s => sumBy (evAcc f) s.w.log ≤ atL oDone s.w.objs f) ?_ ?_ ?_ h
  · simp [init]
  · intro s c w' ms hr ih hc
    have := callR_acc hc f; simp only at *; omega
  · intro s t m rest w' ms hr ih ht he
    have := execR_acc he (wf_reachable hr ht) (regWs_reachable hr) f; simp only at *; omega

end Xtra
