import Verif.QueueB
/-! Conservation of messages: every message id is in exactly one place. -/

set_option linter.unusedSimpArgs false

namespace Xtra

/-- 1 if the message has id `i`. -/
def mid1 (i : Nat) (m : Msg) : Nat := if m.id = i then 1 else 0
def n1 (i j : Nat) : Nat := if j = i then 1 else 0

def wsW (i : Nat) : WsCell → Nat
  | .active _ m => mid1 i m
  | _ => 0

def ctrlW (i : Nat) : Ctrl → Nat
  | .newMessage m => mid1 i m
  | _ => 0

def cellW (i : Nat) : RxCell → Nat
  | .full k _ => ctrlW i k
  | _ => 0

def amW (i : Nat) : AMsg → Nat
  | .one m => mid1 i m
  | _ => 0

def sNewW (i : Nat) : Sending → Nat
  | .new m _ => mid1 i m
  | _ => 0

/-- Message `i` held by an object. -/
def oAll (i : Nat) : Obj → Nat
  | .send _ _ s => sNewW i s
  | .message _ am => amW i am
  | .dispatch _ am _ => amW i am
  | _ => 0

/-- Message `i`, received, held by an object. -/
def oPost (i : Nat) : Obj → Nat
  | .message _ am => amW i am
  | .dispatch _ am _ => amW i am
  | _ => 0

def mAll (i : Nat) : Micro → Nat
  | .sendLd1 _ _ m _ _ => mid1 i m
  | .sendLd2 _ _ m _ _ => mid1 i m
  | .sendCrit _ _ m _ _ => mid1 i m
  | .dropMsg m => mid1 i m
  | .requeue m => mid1 i m
  | .discard am => amW i am
  | .respond _ am _ _ => amW i am
  | _ => 0

def mPost (i : Nat) : Micro → Nat
  | .discard am => amW i am
  | .respond _ am _ _ => amW i am
  | _ => 0

/-- Final events of message `i`. -/
def eAll (i : Nat) : Ev → Nat
  | .dropped j => n1 i j
  | .lost j => n1 i j
  | .bsent m _ => mid1 i m
  | .handled j _ => n1 i j
  | .discarded j => n1 i j
  | _ => 0

def ePost (i : Nat) : Ev → Nat
  | .handled j _ => n1 i j
  | .discarded j => n1 i j
  | _ => 0

/-- Message `i` yielded by a receive future. -/
def eRecv (i : Nat) : Ev → Nat
  | .recv _ _ am => amW i am
  | _ => 0

/-- All places of the channel state. -/
def World.held (i : Nat) (w : World) : Nat :=
  sumBy (mid1 i) w.uq + sumBy (wsW i) w.ws + sumBy (cellW i) w.cells + sumBy (oAll i) w.objs +
    sumBy (eAll i) w.log

theorem sumBy_push (i : Nat) (l : List Msg) (m : Msg) :
    sumBy (mid1 i) (Heap.push Msg.le l m) = sumBy (mid1 i) l + mid1 i m := by
  rw [sumBy_perm _ (Heap.push_perm Msg.le l m)]; simp; omega

theorem sumBy_pop {i : Nat} {l q : List Msg} {m : Msg} (h : Heap.pop Msg.le l = some (m, q)) :
    sumBy (mid1 i) l = mid1 i m + sumBy (mid1 i) q := by
  rw [sumBy_perm _ (Heap.pop_perm h)]; simp

theorem notifyCell_cellW (i : Nat) (cells : List RxCell) (c : Nat) (k : Ctrl)
    (hk : ctrlW i k = 0) : sumBy (cellW i) (notifyCell cells c k) = sumBy (cellW i) cells := by
  unfold notifyCell
  split
  · rename_i wk h
    have := sumBy_set (cellW i) (.full k wk) h
    simp [cellW, hk] at this; exact this
  · rfl

theorem notifyAll_cellW (i : Nat) (l : List Nat) (k : Ctrl) (hk : ctrlW i k = 0) (cells : List RxCell) :
    sumBy (cellW i) (l.foldl (fun cs c => notifyCell cs c k) cells) = sumBy (cellW i) cells := by
  induction l generalizing cells with
  | nil => rfl
  | cons c l ih => simp only [List.foldl_cons]; rw [ih, notifyCell_cellW i _ _ _ hk]

theorem lateLog_eAll (i : Nat) (w : World) (m : Msg) :
    sumBy (eAll i) (w.lateLog m) = sumBy (eAll i) w.log := by
  unfold World.lateLog; split <;> simp [eAll]

theorem held_sendBroadcast (i : Nat) (w : World) (m : Msg) :
    (w.sendBroadcast m).held i = w.held i + mid1 i m := by
  simp [World.held, World.sendBroadcast, notifyAll_cellW i w.wRx .newBroadcast rfl, eAll]; omega

theorem held_killAll (i : Nat) (ms : List Msg) (w : World) :
    (w.killAll ms).held i = w.held i + sumBy (mid1 i) ms := by
  induction ms generalizing w with
  | nil => simp [World.killAll]
  | cons m ms ih =>
    simp only [World.killAll]; rw [ih]; simp [World.held, eAll, n1, mid1]; omega

theorem held_closeHandle (i : Nat) (w : World) (h : Nat) :
    (w.closeHandle h).held i = w.held i := by
  unfold World.closeHandle
  split
  · rename_i wk m hc
    have := sumBy_set (wsW i) (.closed wk) hc
    simp [World.held, eAll, n1, mid1, wsW] at *; omega
  · rfl

theorem held_closeHandles (i : Nat) (hs : List Nat) (w : World) :
    (w.closeHandles hs).held i = w.held i := by
  induction hs generalizing w with
  | nil => rfl
  | cons h hs ih => simp only [World.closeHandles]; rw [ih, held_closeHandle]

theorem held_shutTx (i : Nat) (w : World) : w.shutTx.held i = w.held i := by
  simp only [World.shutTx]
  rw [held_closeHandles]
  have e : ∀ (w : World), ({ w with wAll := [] } : World).held i = w.held i := fun _ => rfl
  have e' : ∀ (w : World), ({ w with wOne := [] } : World).held i = w.held i := fun _ => rfl
  rw [e, held_closeHandles, e', held_killAll]
  simp [World.held]; omega

theorem held_popUnicast {i : Nat} {w w' : World} {m : Msg} (r : RegWs w.ws w.wOne w.wAll)
    (hp : w.popUnicast = some (m, w')) : w.held i = w'.held i + mid1 i m := by
  obtain ⟨q, hq, ⟨-, rfl⟩ | ⟨-, hg, rfl⟩ | ⟨-, h', wk, m', q', t, rfl⟩⟩ := popUnicast_cases r.one hp
  · simp [World.held, sumBy_pop hq]; omega
  · simp [World.held, sumBy_pop hq]; omega
  · have := sumBy_set (wsW i) (.delivered wk) t.cell
    simp [World.held, sumBy_pop hq, sumBy_push, wsW] at *; omega

theorem held_popBroadcast {i : Nat} {w w' : World} {b : Nat} {m : Msg} (r : RegWs w.ws w.wOne w.wAll)
    (hp : w.popBroadcast b = some (m, w')) : w'.held i = w.held i := by
  obtain ⟨q, hq, ⟨-, rfl⟩ | ⟨-, hg, rfl⟩ | ⟨-, h', wk, m', q', t, rfl⟩⟩ := popBroadcast_cases r.all hp
  · simp [World.held]
  · simp [World.held]
  · have := sumBy_set (wsW i) (.delivered wk) t.cell
    rw [held_sendBroadcast]
    simp [World.held, wsW] at *; omega

theorem killAll_resplen (ms : List Msg) (w : World) :
    (w.killAll ms).resp.length = w.resp.length := by
  induction ms generalizing w with
  | nil => rfl
  | cons m ms ih => simp only [World.killAll]; rw [ih]; simp

theorem closeHandles_resplen (hs : List Nat) (w : World) :
    (w.closeHandles hs).resp.length = w.resp.length := by
  induction hs generalizing w with
  | nil => rfl
  | cons h hs ih =>
    simp only [World.closeHandles]; rw [ih]; unfold World.closeHandle; split <;> simp

theorem shutTx_resplen (w : World) : w.shutTx.resp.length = w.resp.length := by
  simp only [World.shutTx]
  rw [closeHandles_resplen]
  show (World.closeHandles _ _).resp.length = _
  rw [closeHandles_resplen]
  show (World.killAll _ _).resp.length = _
  rw [killAll_resplen]

theorem wsW_zero (i : Nat) {ws : List WsCell} {h : Nat} (ha : wsActive ws h = true)
    (hn : ∀ wk m, ws[h]? ≠ some (.active wk m)) : ∃ x, ws[h]? = some x ∧ wsW i x = 0 := by
  cases hc : ws[h]? with
  | none => simp [wsActive, hc] at ha
  | some x => cases x <;> simp_all [wsW]

theorem cellW_zero (i : Nat) {cells : List RxCell} {c : Nat} (ha : cellLive cells c = true)
    (hn : ∀ m wk, cells[c]? ≠ some (.full (.newMessage m) wk)) :
    ∃ x, cells[c]? = some x ∧ cellW i x = 0 := by
  cases hc : cells[c]? with
  | none => simp [cellLive, hc] at ha
  | some x =>
    refine ⟨x, rfl, ?_⟩
    cases x <;> simp [cellW]
    rename_i k wk
    cases k <;> simp_all [ctrlW]

theorem ctrlW_zero (i : Nat) {k : Ctrl} (h : ∀ m, k ≠ .newMessage m) : ctrlW i k = 0 := by
  cases k <;> simp_all [ctrlW]

theorem amW_zero (i : Nat) {am : AMsg} (h : ∀ m, am ≠ .one m) : amW i am = 0 := by
  cases am <;> simp_all [amW]

/-- 1 if the id has been created. -/
def created (i : Nat) (w : World) : Nat := if i < w.resp.length then 1 else 0

theorem callR_held {i : Nat} {w w' : World} {c : Call} {ms : List Micro} (h : CallR w c w' ms) :
    w'.held i + sumBy (mAll i) ms + created i w = w.held i + created i w' := by
  have key : ∀ f x y, w.objs[f]? = some x →
      sumBy (oAll i) (w.objs.set f y) + oAll i x = sumBy (oAll i) w.objs + oAll i y :=
    fun f x y h => sumBy_set _ y h
  cases h <;> simp [World.held, mAll, oAll, sNewW, amW, created, eAll, World.addTx] <;>
    grind [mAll, oAll, sNewW, amW, mid1]

theorem execR_held {i : Nat} {w w' : World} {m : Micro} {ms : List Micro} (h : ExecR w m w' ms)
    (hwf : WF w m) (r : RegWs w.ws w.wOne w.wAll) :
    w'.held i + sumBy (mAll i) ms + created i w = w.held i + mAll i m + created i w' := by
  have key : ∀ f x y, w.objs[f]? = some x →
      sumBy (oAll i) (w.objs.set f y) + oAll i x = sumBy (oAll i) w.objs + oAll i y :=
    fun f x y h => sumBy_set _ y h
  have kws : ∀ f x y, w.ws[f]? = some x →
      sumBy (wsW i) (w.ws.set f y) + wsW i x = sumBy (wsW i) w.ws + wsW i y :=
    fun f x y h => sumBy_set _ y h
  have kc : ∀ f x y, w.cells[f]? = some x →
      sumBy (cellW i) (w.cells.set f y) + cellW i x = sumBy (cellW i) w.cells + cellW i y :=
    fun f x y h => sumBy_set _ y h
  cases h
  case recv_all b _ m1 w1 hp _ _ =>
    simp only [WF] at hwf
    have h3 := fun a b => key _ _ (.message a b) hwf
    have h4 := held_popBroadcast (i := i) r hp
    have h5 := h3 b (.all m1)
    simp [World.held, mAll, oAll, amW, eAll, created, World.popBroadcast_objs hp,
      World.popBroadcast_resp hp] at h5 h4 ⊢; omega
  case recv_one b _ m1 w1 hp _ _ =>
    simp only [WF] at hwf
    have h3 := fun a b => key _ _ (.message a b) hwf
    have h4 := held_popUnicast (i := i) r hp
    simp [World.held, mAll, oAll, amW, eAll, created, World.popUnicast_objs hp,
      World.popUnicast_resp hp] at h3 h4 ⊢
    have := h3 b (.one m1)
    simp [amW] at this; omega
  case recvBcast_some b c _ m1 w1 hp =>
    simp only [WF] at hwf
    have h3 := fun a b => key _ _ (.message a b) hwf.1
    have h4 := held_popBroadcast (i := i) r hp
    have hu : w1.cells[c]? = some .used := by
      have := (popBroadcast_own hp c).2.2; simp at this; rw [this]; exact hwf.2
    have h5 := sumBy_set (cellW i) .gone hu
    have h6 := h3 b (.all m1)
    simp [World.held, mAll, oAll, amW, eAll, created, cellW, World.popBroadcast_objs hp,
      World.popBroadcast_resp hp] at h6 h5 h4 ⊢; omega
  case shutRx => simp [mAll, sumBy_map, sumBy_eq_zero, World.held, created]
  case shutTx => simp [mAll, held_shutTx, created, shutTx_resplen]
  case critAll_sent =>
    simp only [held_sendBroadcast]
    simp [World.held, lateLog_eAll, mAll, created]
  case bcastShutdown =>
    simp only [held_sendBroadcast]
    simp [World.held, mAll, created, mid1]; grind
  case notifyShut => simp [World.held, mAll, created, notifyCell_cellW i w.cells _ .shutdown rfl]
  case recvPoll_panic hc =>
    simp only [WF] at hwf
    obtain ⟨x, h1, h2, h3⟩ := hwf.2
    rw [h1] at hc; simp [h2, h3] at hc
  case dropWs_other hc =>
    obtain ⟨x, h1, h2⟩ := wsW_zero i hwf hc
    have := kws _ _ .gone h1
    rw [h2] at this
    simp [World.held, mAll, created, wsW] at this ⊢; omega
  case dropCell_other hc =>
    obtain ⟨x, h1, h2⟩ := cellW_zero i hwf hc
    have := kc _ _ .gone h1
    rw [h2] at this
    simp [World.held, mAll, created, cellW] at this ⊢; omega
  case cancel_full hc hk =>
    have := kc _ _ .used hc
    simp [World.held, mAll, created, cellW, ctrlW_zero i hk] at this ⊢; omega
  case discard_other hk => simp [mAll, amW_zero i hk]
  case respond_other hk => simp [World.held, mAll, amW_zero i hk, eAll, created]
  all_goals simp only [WF] at hwf
  all_goals (simp [World.held, mAll, oAll, sNewW, amW, created, eAll, lateLog_eAll, sumBy_push, wsW, cellW] <;>
    grind [mAll, oAll, sNewW, amW, mid1, n1, wsW, cellW, ctrlW])

theorem held_reachable {cap : Option Nat} {s : Sys} (h : Reachable cap s) (i : Nat) :
    s.w.held i + tot (mAll i) s.th = created i s.w := by
  refine Reachable.inv (P := fun s => s.w.held i + tot (mAll i) s.th = created i s.w) ?_ ?_ ?_ h
  · simp [init, World.held, created, oAll]
  · intro s c w' ms _ ho hc
    have := callR_held (i := i) hc; simp; omega
  · intro s t m rest w' ms hr ho ht he
    have h1 := execR_held (i := i) he (wf_reachable hr ht) (regWs_reachable hr)
    have h3 := tot_exec (mAll i) ms ht; simp only at *; omega

/-! ### received messages -/

def World.post (i : Nat) (w : World) : Nat := sumBy (oPost i) w.objs + sumBy (ePost i) w.log

theorem callR_post {i : Nat} {w w' : World} {c : Call} {ms : List Micro} (h : CallR w c w' ms) :
    w'.post i + sumBy (mPost i) ms + sumBy (eRecv i) w.log = w.post i + sumBy (eRecv i) w'.log := by
  have key : ∀ f x y, w.objs[f]? = some x →
      sumBy (oPost i) (w.objs.set f y) + oPost i x = sumBy (oPost i) w.objs + oPost i y :=
    fun f x y h => sumBy_set _ y h
  cases h <;> simp [World.post, mPost, oPost, amW, ePost, eRecv, World.addTx] <;>
    grind [mPost, oPost, amW]

theorem lateLog_ePost (i : Nat) (w : World) (m : Msg) :
    sumBy (ePost i) (w.lateLog m) = sumBy (ePost i) w.log := by
  unfold World.lateLog; split <;> simp [ePost]
theorem lateLog_eRecv (i : Nat) (w : World) (m : Msg) :
    sumBy (eRecv i) (w.lateLog m) = sumBy (eRecv i) w.log := by
  unfold World.lateLog; split <;> simp [eRecv]

/-- `shutTx` adds only `dropped` events. -/
theorem shutTx_drops (g : Ev → Nat) (hg : ∀ j, g (.dropped j) = 0) (w : World) :
    sumBy g w.shutTx.log = sumBy g w.log := by
  have hk : ∀ (ms : List Msg) (w : World), sumBy g (w.killAll ms).log = sumBy g w.log := by
    intro ms; induction ms with
    | nil => intro w; rfl
    | cons m ms ih => intro w; simp only [World.killAll]; rw [ih]; simp [hg]
  have hc : ∀ (hs : List Nat) (w : World), sumBy g (w.closeHandles hs).log = sumBy g w.log := by
    intro hs; induction hs with
    | nil => intro w; rfl
    | cons h hs ih =>
      intro w; simp only [World.closeHandles]; rw [ih]; unfold World.closeHandle; split <;> simp [hg]
  simp only [World.shutTx]
  rw [hc]
  show sumBy g (World.closeHandles _ _).log = _
  rw [hc]
  show sumBy g (World.killAll _ _).log = _
  rw [hk]

theorem popBroadcast_ev {w w' : World} {b : Nat} {m : Msg} (g : Ev → Nat)
    (hg : ∀ m ts, g (.bsent m ts) = 0) (r : RegWs w.ws w.wOne w.wAll)
    (hp : w.popBroadcast b = some (m, w')) : sumBy g w'.log = sumBy g w.log := by
  rcases popBroadcast_log r hp with h | ⟨m', ts, h⟩ <;> rw [h] <;> simp [hg]

theorem execR_post {i : Nat} {w w' : World} {m : Micro} {ms : List Micro} (h : ExecR w m w' ms)
    (hwf : WF w m) (r : RegWs w.ws w.wOne w.wAll) :
    w'.post i + sumBy (mPost i) ms + sumBy (eRecv i) w.log =
      w.post i + mPost i m + sumBy (eRecv i) w'.log := by
  have key : ∀ f x y, w.objs[f]? = some x →
      sumBy (oPost i) (w.objs.set f y) + oPost i x = sumBy (oPost i) w.objs + oPost i y :=
    fun f x y h => sumBy_set _ y h
  cases h
  case recv_all b _ m1 w1 hp _ _ =>
    simp only [WF] at hwf
    have h3 := fun a b => key _ _ (.message a b) hwf
    have h4 := popBroadcast_ev (ePost i) (fun _ _ => rfl) r hp
    have h4' := popBroadcast_ev (eRecv i) (fun _ _ => rfl) r hp
    have h5 := h3 b (.all m1)
    simp [World.post, mPost, oPost, amW, ePost, eRecv, World.popBroadcast_objs hp] at h5 h4 ⊢; omega
  case recv_one b _ m1 w1 hp _ _ =>
    simp only [WF] at hwf
    have h3 := fun a b => key _ _ (.message a b) hwf
    have h5 := h3 b (.one m1)
    simp [World.post, mPost, oPost, amW, ePost, eRecv, World.popUnicast_objs hp,
      World.popUnicast_log hp] at h5 ⊢; omega
  case recvBcast_some b c _ m1 w1 hp =>
    simp only [WF] at hwf
    have h3 := fun a b => key _ _ (.message a b) hwf.1
    have h4 := popBroadcast_ev (ePost i) (fun _ _ => rfl) r hp
    have h4' := popBroadcast_ev (eRecv i) (fun _ _ => rfl) r hp
    have h5 := h3 b (.all m1)
    simp [World.post, mPost, oPost, amW, ePost, eRecv, World.popBroadcast_objs hp] at h5 h4 ⊢; omega
  case shutRx => simp [mPost, sumBy_map, sumBy_eq_zero, World.post]
  case shutTx =>
    simp [mPost, World.post, shutTx_drops (ePost i) (fun _ => rfl), shutTx_drops (eRecv i) (fun _ => rfl)]
  case critAll_sent =>
    simp [World.post, mPost, World.sendBroadcast, ePost, eRecv, lateLog_ePost, lateLog_eRecv]
  case bcastShutdown => simp [World.post, mPost, World.sendBroadcast, ePost, eRecv]
  case recvPoll_panic hc =>
    simp only [WF] at hwf
    obtain ⟨x, h1, h2, h3⟩ := hwf.2
    rw [h1] at hc; simp [h2, h3] at hc
  case discard_other hk => simp [mPost, amW_zero i hk]
  case respond_other hk => simp [World.post, mPost, amW_zero i hk, ePost, eRecv]
  all_goals simp only [WF] at hwf
  all_goals (simp [World.post, mPost, oPost, amW, ePost, eRecv, lateLog_ePost, lateLog_eRecv] <;>
    grind [mPost, oPost, amW, mid1, n1])

theorem post_reachable {cap : Option Nat} {s : Sys} (h : Reachable cap s) (i : Nat) :
    s.w.post i + tot (mPost i) s.th = sumBy (eRecv i) s.w.log := by
  refine Reachable.inv
    (P := fun s => s.w.post i + tot (mPost i) s.th = sumBy (eRecv i) s.w.log) ?_ ?_ ?_ h
  · simp [init, World.post, oPost]
  · intro s c w' ms _ ho hc
    have := callR_post (i := i) hc; simp; omega
  · intro s t m rest w' ms hr ho ht he
    have h1 := execR_post (i := i) he (wf_reachable hr ht) (regWs_reachable hr)
    have h3 := tot_exec (mPost i) ms ht; simp only at *; omega

end Xtra
