import Verif.IdealSim3
import Verif.Free
/-! The simulation, concluded: the beginning of calls, and whole executions. -/

set_option linter.unusedSimpArgs false

namespace Xtra.Ideal
open Xtra

section
variable {fo : Msg → Obj → Nat} {fm : Msg → Micro → Nat} {objs : List Obj} {th : List (List Micro)} {ms : List Micro}

theorem bag_callSet {f : Nat} {o old : Obj} (ho : objs[f]? = some old) (h : ∀ x, fo x o + sumBy (fm x) ms = fo x old) :
    bagOf fo fm (objs.set f o) (th ++ [ms]) = bagOf fo fm objs th := by
  funext x
  have h1 := sumBy_set (fo x) o ho
  have h2 := h x
  simp only [bagOf, tot_append]; omega

theorem bag_callAdd {o : Obj} (h : ∀ x, fo x o + sumBy (fm x) ms = 0) :
    bagOf fo fm (objs ++ [o]) (th ++ [ms]) = bagOf fo fm objs th := by
  funext x
  have h2 := h x
  simp only [bagOf, tot_append, sumBy_append, sumBy_cons, sumBy_nil]; omega

theorem bag_callKeep (h : ∀ x, sumBy (fm x) ms = 0) : bagOf fo fm objs (th ++ [ms]) = bagOf fo fm objs th := by
  funext x
  have h2 := h x
  simp only [bagOf, tot_append]; omega

theorem bag_callMove {f : Nat} {o old : Obj} {m m' : Msg} (ho : objs[f]? = some old) (h1 : ∀ x, fo x o + sumBy (fm x) ms = m1 x m')
    (h2 : ∀ x, fo x old = m1 x m) : bagOf fo fm (objs.set f o) (th ++ [ms]) = ((bagOf fo fm objs th).del m).add m' := by
  funext x
  have a1 := sumBy_set (fo x) o ho
  have a2 := h1 x
  have a3 := h2 x
  have a4 := le_sumBy (fo x) ho
  simp only [bagOf, tot_append, Bag.add, Bag.del, m1] at *
  by_cases hx : x = m' <;> by_cases hy : x = m
  · rw [if_pos hx] at a2; rw [if_pos hy] at a3; rw [if_pos hx, if_pos hy]; omega
  · rw [if_pos hx] at a2; rw [if_neg hy] at a3; rw [if_pos hx, if_neg hy]; omega
  · rw [if_neg hx] at a2; rw [if_pos hy] at a3; rw [if_neg hx, if_pos hy]; omega
  · rw [if_neg hx] at a2; rw [if_neg hy] at a3; rw [if_neg hx, if_neg hy]; omega
end

macro "bagw" : tactic => `(tactic| simp [draftO, draftM, limboO, limboM, heldO, heldM, am1])

macro_rules
  | `(tactic| part) => `(tactic| first
    | exact (bag_callSet (by assumption) (fun x => by bagw)).symm
    | exact (bag_callAdd (fun x => by bagw)).symm
    | exact (bag_callKeep (fun x => by bagw)).symm)

section
variable {cap : Option Nat} {w w' : World} {th : List (List Micro)} {ms : List Micro} {g : Ghost}

theorem GInv.call (i : GInv w th g) (h1 : ∀ m ∈ ms, okM g m)
    (h2 : ∀ (f : Nat) (o : Obj), w'.objs[f]? = some o → w.objs[f]? = some o ∨ okO g f o) : GInv w' (th ++ [ms]) g := by
  refine ⟨fun x hx m hm => ?_, fun f o ho => ?_⟩
  · rcases List.mem_append.mp hx with h | h
    · exact i.th x h m hm
    · simp at h; subst h; exact h1 m hm
  · rcases h2 f o ho with h | h
    · exact i.obj f o h
    · exact h

theorem GInv.callSet (i : GInv w th g) (h1 : ∀ m ∈ ms, okM g m) {f : Nat} {o : Obj} (h2 : w'.objs = w.objs.set f o) (h3 : okO g f o) :
    GInv w' (th ++ [ms]) g := by
  refine i.call h1 (fun k x hx => ?_)
  rw [h2] at hx
  rcases set_cases hx with ⟨rfl, h⟩ | h
  · rw [← h] at h3; exact .inr h3
  · exact .inl h.2

theorem GInv.callAdd (i : GInv w th g) (h1 : ∀ m ∈ ms, okM g m) {o : Obj} (h2 : w'.objs = w.objs ++ [o]) (h3 : okO g w.objs.length o) :
    GInv w' (th ++ [ms]) g := by
  refine i.call h1 (fun k x hx => ?_)
  rw [h2] at hx
  rcases append_cases hx with h | ⟨rfl, h⟩
  · exact .inl h.2
  · rw [← h] at h3; exact .inr h3

theorem GInv.callSame (i : GInv w th g) (h1 : ∀ m ∈ ms, okM g m) (h2 : w'.objs = w.objs) : GInv w' (th ++ [ms]) g :=
  i.call h1 (fun k x hx => by rw [h2] at hx; exact .inl hx)

theorem strong_ne (hr : Reachable cap ⟨w, th⟩) {j : Nat} {rc : Rc} (ho : w.objs[j]? = some (.addr rc)) (h : rc.isStrong = true) :
    w.sc ≠ 0 := by
  have h1 := sc_reachable hr
  have h2 := le_sumBy oStrong ho
  have h3 : oStrong (.addr rc) = 1 := by cases rc <;> simp_all [oStrong, Rc.cnt, Rc.isStrong]
  simp only at h1; omega

/-- Cloning an address, or making a message, takes a strong reference if the address is strong. -/
theorem retain_if (hr : Reachable cap ⟨w, th⟩) {j : Nat} {rc : Rc} (ho : w.objs[j]? = some (.addr rc)) :
    Steps (abs w th g) (abs { w with sc := if rc.isStrong then w.sc + 1 else w.sc } th g) := by
  by_cases h : rc.isStrong = true
  · simp only [h, if_true]
    exact .to (.retain (strong_ne hr ho h)) rfl
  · simp only [h]; exact .refl

theorem rcv_ne (hr : Reachable cap ⟨w, th⟩) {j b : Nat} {o : Obj} (ho : w.objs[j]? = some o) (hm : o.mbox = some b) : w.rcv ≠ 0 := by
  have h1 := rcv_reachable hr
  have h2 := le_sumBy oRcv ho
  have h3 : oRcv o = 1 := by cases o <;> simp_all [oRcv, Obj.mbox]
  simp only at h1; omega

theorem answers_new (resp : List Resp) (x : Resp) : answers (resp ++ [x]) = put (answers resp) resp.length (ofResp x) := tab_append

/-- The beginning of every call. -/
theorem call_sim (hr : Reachable cap ⟨w, th⟩) (i : GInv w th g) {c : Call} (hc : CallR w c w' ms) : Sim w th g w' (th ++ [ms]) := by
  have hal : w'.bqs.filter w'.alive = w.bqs.filter w.alive := by
    rw [(callR_bqs hc).1]
    apply List.filter_congr
    intro b _
    have h1 := callR_alive hc (fun k => by have := refs_reachable hr k; simp only at this; omega) b
    have h2 := callR_alive_up hc b
    cases ha : w.alive b <;> cases hb : w'.alive b <;> simp_all
  have hit : w'.items = w.items := funext (callR_bqs hc).2.2
  have hk := (kInv_reachable hr).kw.objs
  cases hc
  case cloneAddr j rc ho =>
    refine ⟨g, i.callAdd (by simp) (o := .addr rc) rfl trivial, ?_⟩
    exact (retain_if hr ho).trans (.stay abs_is)
  case downgrade j rc ho => exact ⟨g, i.callAdd (by simp) (o := .addr .weak) rfl trivial, .stay abs_is⟩
  case asEither j rc ho =>
    refine ⟨g, i.callAdd (by simp) (o := .addr rc.toEither) rfl trivial, ?_⟩
    exact (retain_if hr ho).trans (.stay abs_is)
  case upgrade_no j ho h =>
    refine ⟨g, i.callSame (by simp) rfl, ?_⟩
    exact .to (.upgraded (i := j)) (abs_is (hist := by simp [abs, h, World.ev, shown]; rfl))
  case upgrade_yes j ho h =>
    refine ⟨g, i.callAdd (by simp) (o := .addr .strong) rfl trivial, ?_⟩
    exact (Steps.to (.upgraded (i := j)) rfl).trans (.to (.retain h) (abs_is (hist := by simp [abs, h, World.ev, World.addObj, shown]; rfl)))
  case dropAddr j rc ho => exact ⟨g, i.callSet (by simp [okM]) (f := j) (o := .gone) rfl trivial, .stay abs_is⟩
  case isConnected j rc ho => exact ⟨g, i.callSame (by simp [okM]) rfl, .stay abs_is⟩
  case flipLag =>
    exact ⟨g, i.callSame (by simp [okM]) rfl, .stay (abs_is (dismissed := by simp only [abs]; cases w.lag <;> simp [Lag.flip]))⟩
  case isConnectedStale j rc ho => exact ⟨g, i.callSame (by simp [okM]) rfl, .stay abs_is⟩
  case len j rc ho => exact ⟨g, i.callSame (by simp) rfl, .to (.len (i := j)) abs_is⟩
  case send j rc ho =>
    refine ⟨g, i.callAdd (by simp) (o := .send .ret w.resp.length (.new ⟨w.resp.length, .valued 0⟩ rc)) rfl trivial, ?_⟩
    refine (retain_if hr ho).trans (.to (.make (f := w.objs.length) (bc := false)) (abs_is (draft := ?_) (answer := (answers_new w.resp (.waiting none)).symm)))
    refine (bag_add_call (m := ⟨w.resp.length, .valued 0⟩) (fun x => ?_)).symm
    simp [World.addObj, World.ev, draftO, draftM]
  case broadcast j rc ho =>
    refine ⟨g, i.callAdd (by simp) (o := .send .bcast w.resp.length (.new ⟨w.resp.length, .valued 0⟩ rc)) rfl trivial, ?_⟩
    refine (retain_if hr ho).trans (.to (.make (f := w.objs.length) (bc := true)) (abs_is (draft := ?_) (answer := (answers_new w.resp .none).symm)))
    refine (bag_add_call (m := ⟨w.resp.length, .valued 0⟩) (fun x => ?_)).symm
    simp [World.addObj, World.ev, draftO, draftM]
  case setPrio f p md mid m rc ho =>
    have hid : m.id = mid := (hk f _ ho).2.1
    subst hid
    refine ⟨g, i.callSet (by simp) (f := f) (o := .send md m.id (.new { m with prio := .valued p } rc)) rfl trivial, ?_⟩
    exact .to (.prio (m := m) (p := p) (bag_pos_obj ho (by simp [draftO, m1])))
      (abs_is (draft := (bag_callMove ho (fun x => by bagw) (fun x => by bagw)).symm))
  case setPrio_waiting f p md mid h ho => exact ⟨g, i.callSet (by simp [okM]) (f := f) (o := .gone) rfl trivial, .stay abs_is⟩
  case setPrio_done f p md mid ho => exact ⟨g, i.callSet (by simp [okM]) (f := f) (o := .gone) rfl trivial, .stay abs_is⟩
  case detach f mid s ho =>
    have h0 := i.obj f _ ho
    refine ⟨g, i.callSet (by simp [okM]) (f := f) (o := .send .detached mid s) rfl (by cases s <;> exact h0), .stay ?_⟩
    cases s <;> exact abs_is
  case pollSend_new f wk md mid m rc ho => exact ⟨g, i.callSet (by simp [okM]) (f := f) (o := .busy) rfl trivial, .stay abs_is⟩
  case pollSendStale f wk md mid m rc ho => exact ⟨g, i.callSet (by simp [okM]) (f := f) (o := .busy) rfl trivial, .stay abs_is⟩
  case pollSend_waiting f wk md mid h ho =>
    have h0 := i.obj f _ ho
    simp only [okO] at h0
    exact ⟨g, i.callSet (by simpa [okM] using h0) (f := f) (o := .busy) rfl trivial, .stay abs_is⟩
  case pollSend_done f wk md mid ho =>
    have h0 := i.obj f _ ho
    simp only [okO] at h0
    exact ⟨g, i.callSet (by simpa [okM] using h0) (f := f) (o := .busy) rfl trivial, .stay abs_is⟩
  case dropSend_new f md mid m rc ho => exact ⟨g, i.callSet (by simp [okM]) (f := f) (o := .gone) rfl trivial, .stay abs_is⟩
  case dropSend_waiting f md mid h ho => exact ⟨g, i.callSet (by simp [okM]) (f := f) (o := .gone) rfl trivial, .stay abs_is⟩
  case dropSend_done f md mid ho => exact ⟨g, i.callSet (by simp [okM]) (f := f) (o := .gone) rfl trivial, .stay abs_is⟩
  case pollReply_waiting o wk mid wk' ho hx =>
    refine ⟨g, i.callSame (by simp) rfl, ?_⟩
    exact .to (.replyPending (f := o) (i := mid) (wk := wk) (answers_at hx) (mine_of (hk o _ ho))) (abs_is (answer := (answers_wk hx).symm))
  case pollReply_value o wk mid wk' r ho hx =>
    refine ⟨g, i.callSet (by simp) (f := o) (o := .gone) rfl trivial, ?_⟩
    exact .to (.replyOk (f := o) (i := mid) (r := r) (answers_at hx) (mine_of (hk o _ ho))) abs_is
  case pollReply_interrupted o wk mid wk' ho hx =>
    refine ⟨g, i.callSet (by simp) (f := o) (o := .gone) rfl trivial, ?_⟩
    exact .to (.replyInt (f := o) (i := mid) (answers_at hx) (mine_of (hk o _ ho))) abs_is
  case pollReply_panic o wk mid ho hx => exact ⟨g, i.callSame (by simp) rfl, .stay abs_is⟩
  case dropReply o mid ho => exact ⟨g, i.callSet (by simp) (f := o) (o := .gone) rfl trivial, .stay abs_is⟩
  case cloneMailbox j o b ho hm =>
    refine ⟨g, i.callAdd (by simp [okM]) (o := .busy) rfl trivial, ?_⟩
    exact .to (.enter (rcv_ne hr ho hm)) abs_is
  case address j o b ho hm => exact ⟨g, i.callAdd (by simp) (o := .addr .weak) rfl trivial, .stay abs_is⟩
  case next j o b ho hm =>
    refine ⟨g, i.callAdd (by simp) (o := .recv b .new) (by simp [World.addObj]) trivial, ?_⟩
    refine .to (.enter (rcv_ne hr ho hm)) (abs_is (live := hal.symm) (box := hit.symm) (draft := ?_) (limbo := ?_) (held := ?_))
    all_goals
      simp only [World.addObj, World.incBq_objs]
      exact (bag_callAdd (fun x => by bagw)).symm
  case dropMailbox j b ho => exact ⟨g, i.callSet (by simp [okM]) (f := j) (o := .gone) rfl trivial, .stay abs_is⟩
  case pollRecv_new r wk b ho => exact ⟨g, i.callSet (by simp [okM]) (f := r) (o := .busy) rfl trivial, .stay abs_is⟩
  case pollRecv_waiting r wk b c ho =>
    have h0 := i.obj r _ ho
    simp only [okO] at h0
    exact ⟨g, i.callSet (by simpa [okM] using h0) (f := r) (o := .busy) rfl trivial, .stay abs_is⟩
  case dropRecv_new r b ho => exact ⟨g, i.callSet (by simp [okM]) (f := r) (o := .gone) rfl trivial, .stay abs_is⟩
  case dropRecv_waiting r b c ho => exact ⟨g, i.callSet (by simp [okM]) (f := r) (o := .gone) rfl trivial, .stay abs_is⟩
  case dropMessage o b am ho =>
    exact ⟨g, i.callSet (by simp [okM]) (f := o) (o := .gone) rfl trivial, .stay abs_is⟩
  case dispatch_stop o b am ho ha =>
    refine ⟨g, i.callSet (by simp [okM]) (f := o) (o := .gone) rfl trivial, .stay ?_⟩
    rcases ha with rfl | ⟨m, rfl, -⟩ <;> exact abs_is
  case dispatch_run o b am ho h1 h2 => exact ⟨g, i.callSet (by simp [okM]) (f := o) (o := .dispatch b am true) rfl trivial, .stay abs_is⟩
  case stopSelf o b am rn ho => exact ⟨g, i.callSet (by simp [okM]) (f := o) (o := .dispatch b am false) rfl trivial, .stay abs_is⟩
  case stopAll_no o b am rn ho h => exact ⟨g, i.callSame (by simp) rfl, .stay abs_is⟩
  case stopAll_yes o b am rn ho h => exact ⟨g, i.callSame (by simp [okM]) rfl, .to (.retain h) abs_is⟩
  case finish o r b am rn ho => exact ⟨g, i.callSet (by simp [okM]) (f := o) (o := .gone) rfl trivial, .stay abs_is⟩
  case dropDispatch o b am rn ho => exact ⟨g, i.callSet (by simp [okM]) (f := o) (o := .gone) rfl trivial, .stay abs_is⟩
  case join j rc ho => exact ⟨g, i.callAdd (by simp [okM]) (o := .busy) rfl trivial, .stay abs_is⟩
  case joinStale j rc ho ht => exact ⟨g, i.callAdd (by simp) (o := .join (some w.lst.length)) rfl trivial, .stay abs_is⟩
  case pollJoin_none j wk ho => exact ⟨g, i.callSame (by simp) rfl, .stay abs_is⟩
  case pollJoin_waiting j wk l wk' ho hx => exact ⟨g, i.callSame (by simp) rfl, .stay abs_is⟩
  case pollJoin_notified j wk l wk' ho hx => exact ⟨g, i.callSet (by simp) (f := j) (o := .join none) rfl trivial, .stay abs_is⟩
  case pollJoin_panic j wk l ho hx => exact ⟨g, i.callSame (by simp) rfl, .stay abs_is⟩
  case dropJoin j l ho => exact ⟨g, i.callSet (by simp) (f := j) (o := .gone) rfl trivial, .stay abs_is⟩

/-- One scheduler step of the code is matched by steps of the ideal mailbox. -/
theorem step_sim {s s' : Sys} {a : Act} (hr : Reachable cap s) (i : GInv s.w s.th g) (h : s.step a = some s') :
    Sim s.w s.th g s'.w s'.th := by
  rcases step_rel h with ⟨c, w', ms, -, hc, rfl⟩ | ⟨t, m, rest, w', ms, -, ht, he, rfl⟩
  · exact call_sim hr i hc
  · exact exec_sim hr i ht he

/-- What nobody has to remember in the beginning. -/
def ghost0 : Ghost := ⟨fun _ => 0, fun _ => (0, 0), fun _ => false⟩

theorem init_inv (cap : Option Nat) : GInv (Xtra.init cap).w (Xtra.init cap).th ghost0 := by
  refine ⟨by simp [init], fun f o ho => ?_⟩
  rcases f with _ | _ | f <;> simp [init] at ho <;> subst ho <;> trivial

theorem init_abs (cap : Option Nat) : abs (Xtra.init cap).w (Xtra.init cap).th ghost0 = start cap := by
  apply State.ext <;> try rfl
  · funext b; cases b <;> simp [abs, init, World.items, start]
end
end Xtra.Ideal
