import Verif.Ws
/-! How an object evolves in one step of a running call. -/

set_option linter.unusedSimpArgs false

namespace Xtra

/-- Not a future that can be pending: dropped, consumed, a received message, a mailbox, a resolved join handle. -/
def Obj.inert : Obj → Bool
  | .gone => true
  | .message _ _ => true
  | .mailbox _ => true
  | .join none => true
  | _ => false

/-- Object `f` after a step `mc` that changed it. -/
def ObjEvo (w w' : World) (mc : Micro) (f : Nat) (o : Obj) : Prop :=
  (o.inert = true) ∨
  (∃ md mid h wk m wk', mc = .pollWs f md mid h wk ∧ o = .send md mid (.waiting h) ∧ w.ws[h]? = some (.active wk' m) ∧
    w' = (({ w with ws := w.ws.set h (.active (some wk) m) } : World).setObj f (.send md mid (.waiting h))).ev
      (.sendPending f mid wk)) ∨
  (∃ mid wk, mc = .sendFin f .detached mid wk ∧ o = .reply mid ∧ w' = (w.setObj f (.reply mid)).ev (.sendOk f mid)) ∨
  (∃ mid wk wk', mc = .sendFin f .ret mid wk ∧ o = .send .ret mid .done ∧ w.resp[mid]? = some (.waiting wk') ∧
    w' = (({ w with resp := w.resp.set mid (.waiting (some wk)) } : World).setObj f (.send .ret mid .done)).ev
      (.sendPending f mid wk)) ∨
  (∃ b c wk wk', mc = .recvPoll f b c wk ∧ o = .recv b (.waiting c) ∧ w.cells[c]? = some (.empty wk') ∧
    w' = (({ w with cells := w.cells.set c (.empty (some wk)) } : World).setObj f (.recv b (.waiting c))).ev
      (.recvPending f wk)) ∨
  (∃ l, mc = .join2 f l ∧ o = .join (some l) ∧ w' = w.setObj f (.join (some l)))

theorem execR_objEvo {w w' : World} {mc : Micro} {ms : List Micro} (h : ExecR w mc w' ms) {f : Nat} {o : Obj}
    (ho : w'.objs[f]? = some o) : w.objs[f]? = some o ∨ (mc.slot = some f ∧ ObjEvo w w' mc f o) := by
  cases h
  case recv_all hp _ _ =>
    simp [World.popBroadcast_objs hp] at ho
    rcases set_cases ho with ⟨rfl, rfl⟩ | h
    · exact .inr ⟨rfl, .inl rfl⟩
    · exact .inl h.2
  case recv_one hp _ _ =>
    simp [World.popUnicast_objs hp] at ho
    rcases set_cases ho with ⟨rfl, rfl⟩ | h
    · exact .inr ⟨rfl, .inl rfl⟩
    · exact .inl h.2
  case recvBcast_some hp =>
    simp [World.popBroadcast_objs hp] at ho
    rcases set_cases ho with ⟨rfl, rfl⟩ | h
    · exact .inr ⟨rfl, .inl rfl⟩
    · exact .inl h.2
  case pollWs_active f' md mid h wk wk' m hc =>
    rcases set_cases ho with ⟨rfl, rfl⟩ | h
    · exact .inr ⟨rfl, .inr (.inl ⟨md, mid, _, wk, m, wk', rfl, rfl, hc, rfl⟩)⟩
    · exact .inl h.2
  case sendFin_detached f' mid wk =>
    rcases set_cases ho with ⟨rfl, rfl⟩ | h
    · exact .inr ⟨rfl, .inr (.inr (.inl ⟨mid, wk, rfl, rfl, rfl⟩))⟩
    · exact .inl h.2
  case sendFin_waiting f' mid wk wk' hc =>
    rcases set_cases ho with ⟨rfl, rfl⟩ | h
    · exact .inr ⟨rfl, .inr (.inr (.inr (.inl ⟨mid, wk, wk', rfl, rfl, hc, rfl⟩)))⟩
    · exact .inl h.2
  case recvPoll_empty r b c wk wk' hc =>
    rcases set_cases ho with ⟨rfl, rfl⟩ | h
    · exact .inr ⟨rfl, .inr (.inr (.inr (.inr (.inl ⟨b, c, wk, wk', rfl, rfl, hc, rfl⟩))))⟩
    · exact .inl h.2
  case join2_yes o' l hc =>
    rcases set_cases ho with ⟨rfl, rfl⟩ | h
    · exact .inr ⟨rfl, .inr (.inr (.inr (.inr (.inr ⟨l, rfl, rfl, rfl⟩))))⟩
    · exact .inl h.2
  all_goals first
    | exact .inl ho
    | (simp at ho; exact .inl ho)
    | (simp at ho; rcases set_cases ho with ⟨rfl, rfl⟩ | h
       · exact .inr ⟨rfl, .inl rfl⟩
       · exact .inl h.2)

/-- Events about polls of other objects. -/
theorem pendingWith_cons (f : Nat) (e : Ev) (l : List Ev) (h : e.poll f = none) :
    pendingWith f (e :: l) = pendingWith f l := by
  simp [pendingWith, List.findSome?_cons, h]

theorem pendingWith_append (f : Nat) (t l : List Ev) (h : ∀ e ∈ t, e.poll f = none) :
    pendingWith f (t ++ l) = pendingWith f l := by
  induction t with
  | nil => rfl
  | cons e t ih =>
    rw [List.cons_append, pendingWith_cons _ _ _ (h e (by simp)), ih (fun x hx => h x (by simp [hx]))]

theorem killAll_pw (f : Nat) (ms : List Msg) (w : World) : pendingWith f (w.killAll ms).log = pendingWith f w.log := by
  induction ms generalizing w with
  | nil => rfl
  | cons m ms ih => rw [World.killAll, ih]; exact pendingWith_cons _ _ _ rfl

theorem closeHandles_pw (f : Nat) (hs : List Nat) (w : World) :
    pendingWith f (w.closeHandles hs).log = pendingWith f w.log := by
  induction hs generalizing w with
  | nil => rfl
  | cons h hs ih =>
    rw [World.closeHandles, ih]
    unfold World.closeHandle; split
    · exact pendingWith_cons _ _ _ rfl
    · rfl

theorem shutTx_pw (f : Nat) (w : World) : pendingWith f w.shutTx.log = pendingWith f w.log := by
  simp only [World.shutTx]
  rw [closeHandles_pw, closeHandles_pw]
  exact killAll_pw f w.uq ({ w with lst := w.lst.map LCell.notify, rang := true, uq := [], bqs := [] } : World)

theorem lateLog_pw (f : Nat) (w : World) (m : Msg) : pendingWith f (w.lateLog m) = pendingWith f w.log := by
  unfold World.lateLog; split
  · exact pendingWith_cons _ _ _ rfl
  · rfl

theorem popBroadcast_pw (f : Nat) {w w' : World} {b : Nat} {m : Msg} (r : RegWs w.ws w.wOne w.wAll)
    (hp : w.popBroadcast b = some (m, w')) : pendingWith f w'.log = pendingWith f w.log := by
  rcases popBroadcast_log r hp with h | ⟨m', ts, h⟩ <;> rw [h]
  exact pendingWith_cons _ _ _ rfl

/-- Only a step that works on object `f` reports a poll of `f`. -/
theorem execR_pw {w w' : World} {mc : Micro} {ms : List Micro} (h : ExecR w mc w' ms)
    (r : RegWs w.ws w.wOne w.wAll) {f : Nat} (hf : mc.slot ≠ some f) :
    pendingWith f w'.log = pendingWith f w.log := by
  cases h
  case recv_all hp _ _ => have := popBroadcast_pw f r hp; exact (pendingWith_cons _ _ _ rfl).trans this
  case recvBcast_some hp => have := popBroadcast_pw f r hp; exact (pendingWith_cons _ _ _ rfl).trans this
  case recv_one hp _ _ =>
    refine (pendingWith_cons _ _ _ rfl).trans ?_
    show pendingWith f (World.log _) = _
    rw [World.popUnicast_log hp]
  case shutTx => exact shutTx_pw f w
  case critAll_park => exact lateLog_pw f w _
  case critOne_park => exact lateLog_pw f w _
  case critOne_queue => exact lateLog_pw f w _
  case critOne_hand => exact lateLog_pw f w _
  case critAll_sent => exact (pendingWith_cons _ _ _ rfl).trans (lateLog_pw f w _)
  case dropBq => rw [World.decBq_log]
  all_goals first
    | rfl
    | exact pendingWith_cons _ _ _ rfl
    | (refine pendingWith_cons _ _ _ ?_; simp [Micro.slot] at hf; simp [Ev.poll, hf]; done)
    | exact (pendingWith_cons _ _ _ rfl).trans (pendingWith_cons _ _ _ rfl)

end Xtra
