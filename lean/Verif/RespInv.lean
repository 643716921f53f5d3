import Verif.Kind2
/-! Replies against the history (C18), single resolution of futures. -/

set_option linter.unusedSimpArgs false

namespace Xtra

/-- Message `i` was destroyed without a completed handler. -/
def destroyed (i : Nat) (L : List Ev) : Prop := Ev.dropped i ∈ L ∨ Ev.lost i ∈ L ∨ Ev.discarded i ∈ L

/-- The reply cell of message `i` agrees with the history. -/
def RespOk (i : Nat) (L : List Ev) : Option Resp → Prop
  | some (.waiting _) => ¬ destroyed i L ∧ ∀ r, Ev.handled i r ∉ L
  | some (.value r _) => Ev.handled i r ∈ L
  | some (.interrupted _) => destroyed i L
  | _ => True

/-- Events irrelevant for replies. -/
def Ev.noFin : Ev → Bool
  | .dropped _ | .lost _ | .discarded _ | .handled _ _ => false
  | _ => true

theorem RespOk.cons {i : Nat} {L : List Ev} {x : Option Resp} (h : RespOk i L x) {e : Ev}
    (he : e.noFin = true) : RespOk i (e :: L) x := by
  cases e <;> simp [Ev.noFin] at he <;> (cases x with
    | none => trivial
    | some x => cases x <;> simp_all [RespOk, destroyed])

theorem RespOk.int {i j : Nat} {L : List Ev} {resp : List Resp} (h : RespOk i L resp[i]?) {e : Ev}
    (he : e = .dropped j ∨ e = .lost j ∨ e = .discarded j) :
    RespOk i (e :: L) (resp.modify j Resp.interrupt)[i]? := by
  rw [List.getElem?_modify]
  by_cases hj : j = i
  · subst hj
    cases hx : resp[j]? with
    | none => simp [RespOk]
    | some x =>
      rw [hx] at h
      rcases he with rfl | rfl | rfl <;> cases x <;> simp_all [RespOk, destroyed, Resp.interrupt]
  · cases hx : resp[i]? with
    | none => simp [RespOk]
    | some x =>
      rw [hx] at h
      have hj' : i ≠ j := fun h => hj h.symm
      rcases he with rfl | rfl | rfl <;> cases x <;> simp_all [RespOk, destroyed, Resp.interrupt]

theorem RespOk.ful {i j r : Nat} {L : List Ev} {resp : List Resp} (h : RespOk i L resp[i]?) :
    RespOk i (.handled j r :: L) (resp.modify j (Resp.fulfil r))[i]? := by
  rw [List.getElem?_modify]
  by_cases hj : j = i
  · subst hj
    cases hx : resp[j]? with
    | none => simp [RespOk]
    | some x =>
      rw [hx] at h
      cases x <;> simp_all [RespOk, destroyed, Resp.fulfil]
  · cases hx : resp[i]? with
    | none => simp [RespOk]
    | some x =>
      rw [hx] at h
      have hj' : i ≠ j := fun h => hj h.symm
      cases x <;> simp_all [RespOk, destroyed, Resp.fulfil]

theorem RespOk.kill {i : Nat} {w : World} (h : RespOk i w.log w.resp[i]?) (m : Msg) :
    RespOk i (w.kill m).log (w.kill m).resp[i]? := RespOk.int h (.inl rfl)

theorem RespOk.killAll {i : Nat} (ms : List Msg) {w : World} (h : RespOk i w.log w.resp[i]?) :
    RespOk i (w.killAll ms).log (w.killAll ms).resp[i]? := by
  induction ms generalizing w with
  | nil => exact h
  | cons m ms ih => exact ih (h.kill m)

theorem RespOk.closeHandles {i : Nat} (hs : List Nat) {w : World} (h : RespOk i w.log w.resp[i]?) :
    RespOk i (w.closeHandles hs).log (w.closeHandles hs).resp[i]? := by
  induction hs generalizing w with
  | nil => exact h
  | cons x hs ih =>
    simp only [World.closeHandles]
    apply ih
    unfold World.closeHandle
    split
    · exact RespOk.kill (w := { w with ws := _ }) h _
    · exact h

theorem RespOk.shutTx {i : Nat} {w : World} (h : RespOk i w.log w.resp[i]?) :
    RespOk i w.shutTx.log w.shutTx.resp[i]? := by
  simp only [World.shutTx]
  apply RespOk.closeHandles
  apply RespOk.closeHandles
  apply RespOk.killAll
  exact h

theorem RespOk.setW {i j : Nat} {L : List Ev} {resp : List Resp} {wk wk' : Option Nat}
    (h : RespOk i L resp[i]?) (hj : resp[j]? = some (.waiting wk)) :
    RespOk i L (resp.set j (.waiting wk'))[i]? := by
  by_cases hk : j = i
  · subst hk
    have : j < resp.length := by rw [List.getElem?_eq_some_iff] at hj; exact hj.1
    rw [List.getElem?_set_self this]; rw [hj] at h; exact h
  · rw [List.getElem?_set_ne hk]; exact h

theorem RespOk.late {i : Nat} {w : World} {x : Option Resp} (h : RespOk i w.log x) (m : Msg) :
    RespOk i (w.lateLog m) x := by
  unfold World.lateLog; split
  · exact h.cons rfl
  · exact h

theorem RespOk.popB {i b : Nat} {w w' : World} {m : Msg} (r : RegWs w.ws w.wOne w.wAll)
    (hp : w.popBroadcast b = some (m, w')) (h : RespOk i w.log w.resp[i]?) :
    RespOk i w'.log w'.resp[i]? := by
  rw [World.popBroadcast_resp hp]
  rcases popBroadcast_log r hp with h' | ⟨m', ts, h'⟩ <;> rw [h']
  · exact h
  · exact h.cons rfl

theorem RespOk.append {i : Nat} {L : List Ev} {resp : List Resp} (h : RespOk i L resp[i]?) (x : Resp)
    (hx : i = resp.length → RespOk i L (some x)) : RespOk i L (resp ++ [x])[i]? := by
  by_cases hl : i < resp.length
  · rw [List.getElem?_append_left hl]; exact h
  · by_cases he : i = resp.length
    · rw [he, List.getElem?_concat_length]; rw [he] at hx; exact hx rfl
    · rw [List.getElem?_eq_none (by simp; omega)]; trivial

theorem execR_resp {w w' : World} {m : Micro} {ms : List Micro} (h : ExecR w m w' ms)
    (r : RegWs w.ws w.wOne w.wAll) {i : Nat} (k : RespOk i w.log w.resp[i]?) :
    RespOk i w'.log w'.resp[i]? := by
  cases h
  case recv_all hp _ _ => exact (k.popB r hp).cons rfl
  case recv_one hp _ _ =>
    rw [World.yieldMsg]
    exact RespOk.cons (by rw [World.popUnicast_log hp, World.popUnicast_resp hp]; exact k) rfl
  case recvBcast_some hp => exact (k.popB r hp).cons rfl
  case shutTx => exact k.shutTx
  case bcastShutdown =>
    exact RespOk.append (L := _) (k.cons rfl) _ (fun _ => trivial)
  case sendFin_waiting hc => exact (k.setW hc).cons rfl
  case critAll_sent => exact (k.late _).cons rfl
  case respond_one => exact (RespOk.ful k).cons rfl
  case dropBq => simpa using k
  all_goals first
    | exact k
    | exact k.late _
    | exact k.cons rfl
    | exact (RespOk.kill k _).cons rfl
    | exact RespOk.kill k _
    | exact RespOk.int k (.inr (.inl rfl))
    | exact RespOk.int k (.inr (.inr rfl))

theorem callR_resp {w w' : World} {c : Call} {ms : List Micro} (h : CallR w c w' ms)
    {i : Nat} (hf : i = w.resp.length → sumBy (eAll i) w.log = 0) (k : RespOk i w.log w.resp[i]?) :
    RespOk i w'.log w'.resp[i]? := by
  cases h
  case send =>
    refine RespOk.append (k.cons rfl) _ (fun he => ?_)
    have := (sumBy_eq_zero (eAll i)).mp (hf he)
    refine RespOk.cons (e := .made _ _ _) (?_ : RespOk i w.log (some (.waiting none))) rfl
    refine ⟨?_, ?_⟩
    · rintro (h | h | h) <;> have := this _ h <;> simp [eAll, n1] at this
    · intro r h; have := this _ h; simp [eAll, n1] at this
  case broadcast => exact RespOk.append (k.cons rfl) _ (fun _ => trivial)
  case pollReply_waiting _ hc => exact (k.setW hc).cons rfl
  case next => 
    have : ∀ (w : World) b, (w.incBq b).resp = w.resp ∧ (w.incBq b).log = w.log := by
      intro w b; unfold World.incBq; split <;> simp
    simp only [World.addObj]; rw [(this _ _).1, (this _ _).2]; exact k
  all_goals first
    | exact k
    | exact k.cons rfl

theorem resp_reachable {cap : Option Nat} {s : Sys} (h : Reachable cap s) (i : Nat) :
    RespOk i s.w.log s.w.resp[i]? := by
  refine Reachable.inv (P := fun s => RespOk i s.w.log s.w.resp[i]?) ?_ ?_ ?_ h
  · simp [init, RespOk]
  · intro s c w' ms hr ih hc
    refine callR_resp hc (fun he => ?_) ih
    have := held_reachable hr i
    simp only [World.held, created, he, Nat.lt_irrefl, if_false] at this
    rw [he]; omega
  · intro s t m rest w' ms hr ih ht he
    exact execR_resp he (regWs_reachable hr) ih

/-! ### reply events -/

def rplOk (L : List Ev) : Ev → Prop
  | .replyOk _ i r => Ev.handled i r ∈ L
  | .replyInt _ i => destroyed i L
  | _ => True

theorem rplOk.mono {L L' : List Ev} (hs : L <:+ L') {e : Ev} (h : rplOk L e) : rplOk L' e := by
  have := hs.subset
  cases e with
  | replyOk f i r => exact this h
  | replyInt f i => rcases h with h | h | h
                    · exact .inl (this h)
                    · exact .inr (.inl (this h))
                    · exact .inr (.inr (this h))
  | _ => trivial

theorem execR_newEv {w w' : World} {m : Micro} {ms : List Micro} (h : ExecR w m w' ms)
    (r : RegWs w.ws w.wOne w.wAll) (hk : ∀ i, RespOk i w.log w.resp[i]?) :
    ∀ e ∈ w'.log, e ∈ w.log ∨ rplOk w'.log e := by
  intro e he
  cases h
  case shutTx =>
    rcases shutTx_mem he with h | ⟨j, rfl⟩
    · exact .inl h
    · exact .inr trivial
  case recv_all hp _ _ =>
    simp only [World.yieldMsg, World.ev] at he
    rcases List.mem_cons.mp he with rfl | he2
    · exact .inr trivial
    · rcases popBroadcast_log r hp with h' | ⟨m', ts, h'⟩ <;> rw [show _ = _ from h'] at he2
      · exact .inl he2
      · rcases List.mem_cons.mp he2 with rfl | he3
        · exact .inr trivial
        · exact .inl he3
  case recvBcast_some hp =>
    simp only [World.yieldMsg, World.ev] at he
    rcases List.mem_cons.mp he with rfl | he2
    · exact .inr trivial
    · rcases popBroadcast_log r hp with h' | ⟨m', ts, h'⟩ <;> rw [show _ = _ from h'] at he2
      · exact .inl he2
      · rcases List.mem_cons.mp he2 with rfl | he3
        · exact .inr trivial
        · exact .inl he3
  case recv_one hp _ _ =>
    simp only [World.yieldMsg, World.ev, World.popUnicast_log hp] at he
    rcases List.mem_cons.mp he with rfl | he2
    · exact .inr trivial
    · exact .inl he2
  case critAll_sent =>
    rcases List.mem_cons.mp he with rfl | he2
    · exact .inr trivial
    · simp only [World.lateLog] at he2
      split at he2
      · rcases List.mem_cons.mp he2 with rfl | he3
        · exact .inr trivial
        · exact .inl he3
      · exact .inl he2
  case bcastShutdown =>
    rcases List.mem_cons.mp he with rfl | he2
    · exact .inr trivial
    · exact .inl he2
  case sendFin_value mid wk wk' v hc =>
    rcases List.mem_cons.mp he with rfl | he2
    · refine .inr (List.mem_cons_of_mem _ ?_)
      have := hk mid; rw [hc] at this; exact this
    · exact .inl he2
  case sendFin_interrupted mid wk wk' hc =>
    rcases List.mem_cons.mp he with rfl | he2
    · refine .inr ?_
      have := hk mid; rw [hc] at this
      have h2 : rplOk w.log (.replyInt 0 mid) := this
      exact rplOk.mono (List.suffix_cons _ _) h2
    · exact .inl he2
  all_goals first
    | exact .inl he
    | (simp [World.lateLog] at he; grind [rplOk])

theorem callR_newEv {w w' : World} {c : Call} {ms : List Micro} (h : CallR w c w' ms)
    (hk : ∀ i, RespOk i w.log w.resp[i]?) :
    ∀ e ∈ w'.log, e ∈ w.log ∨ rplOk w'.log e := by
  intro e he
  cases h
  case pollReply_value mid wk' v _ hc =>
    rcases List.mem_cons.mp he with rfl | he2
    · refine .inr (List.mem_cons_of_mem _ ?_)
      have := hk mid; rw [hc] at this; exact this
    · exact .inl he2
  case pollReply_interrupted mid wk' _ hc =>
    rcases List.mem_cons.mp he with rfl | he2
    · refine .inr ?_
      have := hk mid; rw [hc] at this
      have h2 : rplOk w.log (.replyInt 0 mid) := this
      exact rplOk.mono (List.suffix_cons _ _) h2
    · exact .inl he2
  all_goals first
    | exact .inl he
    | (simp at he; grind [rplOk])

theorem rpl_reachable {cap : Option Nat} {s : Sys} (h : Reachable cap s) :
    ∀ e ∈ s.w.log, rplOk s.w.log e := by
  refine Reachable.inv (P := fun s => ∀ e ∈ s.w.log, rplOk s.w.log e) ?_ ?_ ?_ h
  · simp [init]
  · intro s c w' ms hr ih hc e he
    rcases callR_newEv hc (resp_reachable hr) e he with h | h
    · exact (ih e h).mono (callR_suffix hc)
    · exact h
  · intro s t m rest w' ms hr ih ht hx e he
    rcases execR_newEv hx (regWs_reachable hr) (resp_reachable hr) e he with h | h
    · exact (ih e h).mono (execR_suffix hx (regWs_reachable hr))
    · exact h

end Xtra
