import Verif.PropsLost
import Verif.PropsPark
import Verif.PropsLen
import Verif.PropsJoin
import Verif.Wake2
/-! # C47: every message ends exactly once; nothing outlives the channel -/

set_option linter.unusedSimpArgs false

namespace Xtra

/-! ## Specification -/

/-- The end of message `i`: its handler completed or it was destroyed. -/
def Ev.endsMsg (i : Nat) : Ev → Bool
  | .handled j _ => j == i
  | .dropped j => j == i
  | .lost j => j == i
  | .discarded j => j == i
  | _ => false

/-- Broadcast `i` was accepted. -/
def Ev.sentAll (i : Nat) : Ev → Bool
  | .bsent m _ => m.id == i
  | _ => false

/-- Owns an `Arc<Chan>`: addresses, unpolled send futures (send_future.rs:172-176), mailboxes, receive futures, messages and dispatch
futures (each contains a `Ptr`, ptr.rs:14-20). Not: parked send futures, reply receivers, join handles (address.rs:251). -/
def Obj.holdsChan : Obj → Bool
  | .addr _ => true
  | .send _ _ (.new _ _) => true
  | .mailbox _ => true
  | .recv _ _ => true
  | .message _ _ => true
  | .dispatch _ _ _ => true
  | .busy => true
  | _ => false

/-- The last `Arc<Chan>` is dropped: drop glue of `Chan` and `Inner` (chan.rs:41-46, 305-313), fields in declaration order. The handles
of parked sends close them (waiting_sender.rs:48-65); handles of receivers: no receive future is left to be affected; the messages in
the unicast queue are destroyed; the broadcast queues are owned by the mailboxes. -/
def World.free (w : World) : World :=
  let w1 := ({ w with wOne := [] }).closeHandles w.wOne
  let w2 := ({ w1 with wAll := [] }).closeHandles w.wAll
  ({ w2 with wRx := [], uq := [], bqs := [] }).killAll w2.uq

/-! ## Proofs -/

theorem ends_sum (i : Nat) (l : List Ev) : sumBy (eAll i) l = l.countP (Ev.endsMsg i) + l.countP (Ev.sentAll i) := by
  induction l with
  | nil => rfl
  | cons e l ih => cases e <;> simp [List.countP_cons, eAll, Ev.endsMsg, Ev.sentAll, n1, mid1, ih] <;> (try split) <;> omega

/-- **C47.** In every reachable state of every interleaving each message has ended at most once: never handled twice, never handled
and destroyed, never destroyed twice; and what has ended is nowhere any more. -/
theorem C47_at_most_one_end {cap : Option Nat} {s : Sys} (h : Reachable cap s) (i : Nat) :
    s.w.log.countP (Ev.endsMsg i) ≤ 1 ∧
    (0 < s.w.log.countP (Ev.endsMsg i) → (∀ m ∈ s.w.uq, m.id ≠ i) ∧ (∀ f md m, s.w.parkedSend f md m → m.id ≠ i) ∧
      (∀ (f : Nat) (md : Mode) (mid : Nat) (m : Msg) (rc : Rc), s.w.objs[f]? = some (.send md mid (.new m rc)) → m.id ≠ i) ∧
      (∀ (o b : Nat) (m : Msg), s.w.objs[o]? = some (.message b (.one m)) → m.id ≠ i) ∧
      (∀ (o b : Nat) (m : Msg) (r : Bool), s.w.objs[o]? = some (.dispatch b (.one m) r) → m.id ≠ i)) := by
  have h1 := held_reachable h i
  have h2 := created_le i s.w
  have h3 := ends_sum i s.w.log
  simp only [World.held] at h1
  refine ⟨by omega, fun hp => ⟨?_, ?_, ?_, ?_, ?_⟩⟩
  · rintro m hm rfl
    obtain ⟨k, hk⟩ := List.getElem?_of_mem hm
    have := le_sumBy (mid1 m.id) hk; simp [mid1] at this; omega
  · rintro f md m ⟨k, wk, -, hk⟩ rfl
    have := le_sumBy (wsW m.id) hk; simp [wsW, mid1] at this; omega
  · rintro f md mid m rc hk rfl
    have := le_sumBy (oAll m.id) hk; simp [oAll, sNewW, mid1] at this; omega
  · rintro f b m hk rfl
    have := le_sumBy (oAll m.id) hk; simp [oAll, amW, mid1] at this; omega
  · rintro f b m r hk rfl
    have := le_sumBy (oAll m.id) hk; simp [oAll, amW, mid1] at this; omega

theorem held_free (i : Nat) (w : World) : w.free.held i = w.held i := by
  simp only [World.free]
  have e1 : ∀ (w : World), ({ w with wRx := [], uq := [], bqs := [] } : World).held i + sumBy (mid1 i) w.uq = w.held i :=
    fun _ => by simp [World.held]; omega
  have e2 : ∀ (w : World), ({ w with wAll := [] } : World).held i = w.held i := fun _ => rfl
  have e3 : ∀ (w : World), ({ w with wOne := [] } : World).held i = w.held i := fun _ => rfl
  rw [held_killAll, e1, held_closeHandles, e2, held_closeHandles, e3]

theorem RespOk.free {i : Nat} {w : World} (h : RespOk i w.log w.resp[i]?) : RespOk i w.free.log w.free.resp[i]? := by
  simp only [World.free]
  apply RespOk.killAll
  apply RespOk.closeHandles
  apply RespOk.closeHandles
  exact h

theorem free_resplen (w : World) : w.free.resp.length = w.resp.length := by
  simp only [World.free]
  rw [killAll_resplen]
  simp only [closeHandles_resplen]

theorem free_objs (w : World) : w.free.objs = w.objs := by simp [World.free]
theorem free_cells (w : World) : w.free.cells = w.cells := by simp [World.free]
theorem free_uq (w : World) : w.free.uq = [] := by simp [World.free]

theorem free_ws (w : World) (k : Nat) :
    w.free.ws[k]? = if k ∈ w.wOne ∨ k ∈ w.wAll then (w.ws[k]?).map WsCell.close else w.ws[k]? := by
  have : ∀ x : Option WsCell, (x.map WsCell.close).map WsCell.close = x.map WsCell.close := by
    intro x; cases x with
    | none => rfl
    | some y => cases y <;> rfl
  simp only [World.free, closeHandles_ws, World.killAll_ws]
  by_cases h1 : k ∈ w.wOne <;> by_cases h2 : k ∈ w.wAll <;> simp only [h1, h2, if_true, if_false,
    or_self, or_true, true_or, this]

/-- What the state of a channel without owners looks like. -/
structure Freed (w : World) : Prop where
  uq : w.uq = []
  parked : ∀ (h : Nat) (wk : Option Nat) (m : Msg), w.ws[h]? ≠ some (.active wk m)
  cells : ∀ i, sumBy (cellW i) w.cells = 0
  objs : ∀ i, sumBy (oAll i) w.objs = 0

theorem free_freed {cap : Option Nat} {w : World} (hq : Quiet cap w) (hg : ∀ o ∈ w.objs, o.holdsChan = false) : Freed w.free := by
  refine ⟨free_uq w, ?_, ?_, ?_⟩
  · intro h wk m hx
    rw [free_ws] at hx
    split at hx
    · cases hy : w.ws[h]? with
      | none => simp [hy] at hx
      | some y => cases y <;> simp [hy, WsCell.close] at hx
    · rename_i hn
      exact hn (hq.regWs.reg hx)
  · intro i
    rw [free_cells, sumBy_eq_zero]
    intro x hx
    obtain ⟨c, hc⟩ := List.getElem?_of_mem hx
    cases x with
    | full k wk =>
      exfalso
      have h1 := (hq.own c).2.1
      have h2 : sumBy (oCell c) w.objs = 0 := by
        rw [sumBy_eq_zero]
        intro o ho
        have := hg o ho
        cases o <;> simp [Obj.holdsChan] at this <;> rfl
      simp [h2, cellL, cellLive, hc] at h1
    | _ => rfl
  · intro i
    rw [free_objs, sumBy_eq_zero]
    intro o ho
    have := hg o ho
    cases o <;> simp [Obj.holdsChan] at this <;> try rfl
    rename_i st; cases st <;> simp [Obj.holdsChan] at this <;> rfl

theorem free_made {cap : Option Nat} {w : World} (hq : Quiet cap w) (hg : ∀ o ∈ w.objs, o.holdsChan = false) {i : Nat}
    (hi : i < w.resp.length) : w.free.log.countP (Ev.endsMsg i) + w.free.log.countP (Ev.sentAll i) = 1 := by
  have f := free_freed hq hg
  obtain ⟨th, hr, ht⟩ := hq.tot0
  have h1 := held_reachable hr i
  have h2 := held_free i w
  simp only [ht, created, hi, if_true] at h1
  have h3 : sumBy (wsW i) w.free.ws = 0 := by
    rw [sumBy_eq_zero]; intro x hx
    obtain ⟨k, hk⟩ := List.getElem?_of_mem hx
    cases x with
    | active wk m => exact absurd hk (f.parked k wk m)
    | _ => rfl
  rw [← ends_sum]
  simp only [World.held, f.uq, f.cells, f.objs, h3] at h2
  simp only [World.held] at h1
  simp at h2
  omega

theorem free_log_mem {w : World} {e : Ev} (h : e ∈ w.free.log) : e ∈ w.log ∨ ∃ j, e = .dropped j := by
  have hk : ∀ (ms : List Msg) (w : World), e ∈ (w.killAll ms).log → e ∈ w.log ∨ ∃ j, e = .dropped j := by
    intro ms; induction ms with
    | nil => intro w h; exact .inl h
    | cons m ms ih =>
      intro w h
      simp only [World.killAll] at h
      rcases ih _ h with h | h
      · simp at h; rcases h with h | h
        · exact .inr ⟨_, h⟩
        · exact .inl h
      · exact .inr h
  have hc : ∀ (hs : List Nat) (w : World), e ∈ (w.closeHandles hs).log → e ∈ w.log ∨ ∃ j, e = .dropped j := by
    intro hs; induction hs with
    | nil => intro w h; exact .inl h
    | cons x hs ih =>
      intro w h
      simp only [World.closeHandles] at h
      rcases ih _ h with h | h
      · unfold World.closeHandle at h
        split at h
        · simp at h; rcases h with h | h
          · exact .inr ⟨_, h⟩
          · exact .inl h
        · exact .inl h
      · exact .inr h
  simp only [World.free] at h
  rcases hk _ _ h with h | h
  · rcases hc _ _ h with h | h
    · have := hc w.wOne ({ w with wOne := [] }) h
      exact this
    · exact .inr h
  · exact .inr h

theorem free_sentAll {cap : Option Nat} {w : World} (hq : Quiet cap w) {f i : Nat} (hm : Ev.made f i false ∈ w.log) :
    w.free.log.countP (Ev.sentAll i) = 0 := by
  obtain ⟨th, hr, -⟩ := id hq
  have k := kInv_reachable hr
  rw [List.countP_eq_zero]
  intro e he
  rcases free_log_mem he with h | ⟨j, rfl⟩
  · cases e with
    | bsent m ts =>
      simp only [Ev.sentAll]
      intro h1
      have h1 : m.id = i := by simpa using h1
      have h2 := k.evs _ h
      simp only [okE, bcMsg] at h2
      rcases h2 with ⟨⟨g, h3⟩, -⟩ | ⟨-, h3⟩
      · subst h1
        have := (k.uniq _ _ _ _ _ _ h3 hm).2 rfl
        simp at this
      · subst h1; exact h3 _ _ hm
    | _ => simp [Ev.sentAll]
  · simp [Ev.sentAll]

/-- A mailbox queue nobody refers to is empty. -/
def DeadEmpty (w : World) : Prop := ∀ b, w.items b ≠ [] → w.alive b = true

theorem DeadEmpty.send {w : World} (h : DeadEmpty w) (o : BqsOk w) (m : Msg) : DeadEmpty (w.sendBroadcast m) := by
  intro b hb
  rw [sendBroadcast_items _ _ o.nodup] at hb
  rw [alive_congr (sendBroadcast_refs w m o.nodup b)]
  split at hb
  · rename_i hx; exact hx.2
  · exact h b hb

theorem DeadEmpty.pop {w w' : World} {b : Nat} {m : Msg} (h : DeadEmpty w) (r : RegWs w.ws w.wOne w.wAll) (o : BqsOk w)
    (hp : w.popBroadcast b = some (m, w')) : DeadEmpty w' := by
  obtain ⟨q, hq, hc⟩ := popBroadcast_cases r.all hp
  have hne := pop_ne hq
  have h1 : DeadEmpty (w.afterPop b q) := by
    intro b' hb'
    rw [alive_congr (afterPop_refs w b q b')]
    rw [afterPop_items hne] at hb'
    split at hb'
    · rename_i e; subst e; exact h _ hne
    · exact h _ hb'
  rcases hc with ⟨-, rfl⟩ | ⟨-, hg, rfl⟩ | ⟨hf, h', wk, m', q', t, rfl⟩
  · exact h1
  · exact h1
  · have ho : BqsOk (w.afterPop b q) := o.congr (by simp) (afterPop_bqlen w b q)
    exact DeadEmpty.send (w := { w.afterPop b q with wAll := q', ws := _ }) h1 (ho.congr rfl rfl) m'

theorem DeadEmpty.congr {w w' : World} (h : DeadEmpty w) (e : w'.bq = w.bq) : DeadEmpty w' := by
  intro b hb
  rw [items_congr e] at hb
  rw [alive_congr' e]; exact h b hb

theorem execR_deadEmpty {w w' : World} {m : Micro} {ms : List Micro} (h : DeadEmpty w) (r : RegWs w.ws w.wOne w.wAll) (o : BqsOk w)
    (he : ExecR w m w' ms) : DeadEmpty w' := by
  cases he
  case recv_all hp _ _ => exact (h.pop r o hp).congr (by simp)
  case recvBcast_some hp => exact (h.pop r o hp).congr (by simp)
  case recv_one hp _ _ => exact h.congr (by simp [World.popUnicast_bq hp])
  case critAll_sent => exact DeadEmpty.send (h.congr rfl) (o.congr rfl rfl) _
  case bcastShutdown => exact DeadEmpty.send (h.congr rfl) (o.congr rfl rfl) _
  case dropBq b0 =>
    intro b hb
    rw [decBq_items] at hb
    rw [alive_iff, decBq_refs]
    have h2 := h b
    rw [alive_iff] at h2
    split at hb
    · exact absurd rfl hb
    · rename_i hn
      split
      · rename_i e; subst e; simp at hn; omega
      · exact h2 hb
  case newBq ob =>
    intro b hb
    rw [newBq_items] at hb
    have h2 := h b hb
    have hl := alive_lt h2
    unfold World.alive at h2 ⊢
    simp only [List.getElem?_append_left hl]; exact h2
  all_goals exact h.congr (by simp)

theorem callR_alive_up {w w' : World} {c : Call} {ms : List Micro} (h : CallR w c w' ms) (b : Nat) (ha : w.alive b = true) :
    w'.alive b = true := by
  cases h
  case next b0 _ _ =>
    rw [alive_iff] at ha ⊢
    have h3 : ((({ w with rcv := w.rcv + 1 } : World).incBq b0).addObj (.recv b0 .new)).refs b =
      if b = b0 ∧ b0 < w.bq.length then w.refs b0 + 1 else w.refs b := incBq_refs ({ w with rcv := w.rcv + 1 } : World) b0 b
    rw [h3]; split
    · omega
    · exact ha
  all_goals exact (alive_congr' (by simp) b).trans ha

theorem deadEmpty_reachable {cap : Option Nat} {s : Sys} (h : Reachable cap s) : DeadEmpty s.w := by
  refine Reachable.inv (P := fun s => DeadEmpty s.w) ?_ ?_ ?_ h
  · intro b hb
    cases b with
    | zero => simp [init, World.items] at hb
    | succ n => simp [init, World.items] at hb
  · intro s c w' ms hr ho hc b hb
    simp only at hb ⊢
    rw [(callR_bqs hc).2.2 b] at hb
    exact callR_alive_up hc b (ho b hb)
  · intro s t m rest w' ms hr ho ht he
    exact execR_deadEmpty ho (regWs_reachable hr) (bqsOk_reachable hr) he

theorem free_bq {cap : Option Nat} {w : World} (hq : Quiet cap w) (hg : ∀ o ∈ w.objs, o.holdsChan = false) (b : Nat) :
    w.items b = [] := by
  obtain ⟨th, hr, ht⟩ := hq.tot0
  apply Classical.byContradiction
  intro hn
  have h1 := (alive_iff w b).1 (deadEmpty_reachable hr b hn)
  have h2 := refs_reachable hr b
  have h3 : sumBy (oBq b) w.objs = 0 := by
    rw [sumBy_eq_zero]
    intro o ho
    have := hg o ho
    cases o <;> simp [Obj.holdsChan] at this <;> rfl
  simp only [ht, h3] at h2
  omega

/-- **C47.** When the last owner of the channel is gone (no address, unpolled send, mailbox, receive future, message or dispatch future
is left and no call is in progress) and the channel is therefore freed: every unicast message ever made has ended exactly once, every
broadcast was destroyed exactly once unless it had been accepted, and no copy of a broadcast is left in any mailbox queue. -/
theorem C47_nothing_leaks {cap : Option Nat} {w : World} (hq : Quiet cap w) (hg : ∀ o ∈ w.objs, o.holdsChan = false) :
    (∀ f i, .made f i false ∈ w.log → w.free.log.countP (Ev.endsMsg i) = 1) ∧
    (∀ f i, .made f i true ∈ w.log → w.free.log.countP (Ev.endsMsg i) + w.free.log.countP (Ev.sentAll i) = 1) ∧
    (∀ b, w.items b = []) := by
  obtain ⟨th, hr, -⟩ := id hq
  have k := kInv_reachable hr
  refine ⟨fun f i h => ?_, fun f i h => ?_, free_bq hq hg⟩
  · have h1 := free_made hq hg (k.made _ _ _ h).2.1
    have h2 := free_sentAll hq h
    omega
  · exact free_made hq hg (k.made _ _ _ h).2.1

theorem free_resp_none (i : Nat) (w : World) : w.free.resp[i]? = some .none ↔ w.resp[i]? = some .none := by
  have hint : ∀ (l : List Resp) (j : Nat), (l.modify j Resp.interrupt)[i]? = some .none ↔ l[i]? = some .none := by
    intro l j
    rw [List.getElem?_modify]
    by_cases hj : j = i
    · subst hj; cases hx : l[j]? with
      | none => simp
      | some x => cases x <;> simp [Resp.interrupt]
    · simp [hj]
  have hk : ∀ (ms : List Msg) (w : World), (w.killAll ms).resp[i]? = some .none ↔ w.resp[i]? = some .none := by
    intro ms; induction ms with
    | nil => intro w; exact Iff.rfl
    | cons m ms ih => intro w; simp only [World.killAll]; rw [ih]; exact hint _ _
  have hc : ∀ (hs : List Nat) (w : World), (w.closeHandles hs).resp[i]? = some .none ↔ w.resp[i]? = some .none := by
    intro hs; induction hs with
    | nil => intro w; exact Iff.rfl
    | cons x hs ih =>
      intro w; simp only [World.closeHandles]; rw [ih]
      unfold World.closeHandle; split
      · exact hint _ _
      · exact Iff.rfl
  simp only [World.free]
  rw [hk, hc]
  show (World.closeHandles _ _).resp[i]? = _ ↔ _
  rw [hc]

theorem free_reply {cap : Option Nat} {w : World} (hq : Quiet cap w) (hg : ∀ o ∈ w.objs, o.holdsChan = false) {f i : Nat}
    (hm : Ev.made f i false ∈ w.log) :
    (∃ r wk, w.free.resp[i]? = some (.value r wk)) ∨ ∃ wk, w.free.resp[i]? = some (.interrupted wk) := by
  have h1 := (C47_nothing_leaks hq hg).1 f i hm
  obtain ⟨th, hr, -⟩ := id hq
  have k := kInv_reachable hr
  obtain ⟨-, h2, h3⟩ := k.made _ _ _ hm
  have h4 := (resp_reachable hr i).free
  have h5 := mt (free_resp_none i w).1 (by have h3 := h3; simp only at h3; rw [h3]; simp)
  have h6 : i < w.free.resp.length := by rw [free_resplen]; exact h2
  rw [List.getElem?_eq_getElem h6] at h4 h5 ⊢
  cases hx : w.free.resp[i] with
  | none => simp [hx] at h5
  | value r wk => exact .inl ⟨r, wk, rfl⟩
  | interrupted wk => exact .inr ⟨wk, rfl⟩
  | waiting wk =>
    exfalso
    rw [hx] at h4
    obtain ⟨h7, h8⟩ := h4
    have : 0 < w.free.log.countP (Ev.endsMsg i) := by omega
    obtain ⟨e, he, h9⟩ := List.countP_pos_iff.1 this
    cases e <;> simp [Ev.endsMsg] at h9 <;> subst h9
    all_goals first | exact h8 _ he | exact h7 (by simp [destroyed, he])

theorem free_lst (w : World) : w.free.lst = w.lst := by simp [World.free]

theorem free_rcv0 {cap : Option Nat} {w : World} (hq : Quiet cap w) (hg : ∀ o ∈ w.objs, o.holdsChan = false) : w.rcv = 0 := by
  have h1 : w.mailboxRefs = 0 := by
    unfold World.mailboxRefs
    rw [List.countP_eq_zero]
    intro o ho
    have := hg o ho
    cases o <;> simp_all [Obj.holdsChan, Obj.isMailboxRef]
  have := (C14_counts_exact_quiet hq).2; omega

theorem free_fin {cap : Option Nat} {w w' w1 : World} (hq : Quiet cap w) (hg : ∀ o ∈ w.objs, o.holdsChan = false) {f i wk : Nat} {md : Mode}
    (hm : Ev.made f i md.isB ∈ w.log) (hl : w1.log = w.free.log) (hrs : w1.resp = w.free.resp)
    (hd : Runs w1 [.sendFin f md i wk] w') : ∃ e, w'.log = e :: w.free.log ∧ (e.resolves f = true ∨ ∃ i, e = .sendOk f i) := by
  cases hd with | cons hd =>
  cases md with
  | bcast => simp [exec] at hd; cases hd; exact ⟨_, by simp [World.ev, hl], .inr ⟨i, rfl⟩⟩
  | detached => simp [exec] at hd; cases hd; exact ⟨_, by simp [World.ev, hl], .inr ⟨i, rfl⟩⟩
  | ret =>
    rcases free_reply hq hg hm with ⟨r, x, h⟩ | ⟨x, h⟩
    · simp [exec, hrs, h] at hd; cases hd; exact ⟨.replyOk f i r, by simp [World.ev, hl], .inl (by simp [Ev.resolves])⟩
    · simp [exec, hrs, h] at hd; cases hd; exact ⟨.replyInt f i, by simp [World.ev, hl], .inl (by simp [Ev.resolves])⟩

/-- **C47.** And then no future is left waiting: every poll of a remaining send future, reply receiver or join handle resolves. -/
theorem C47_nobody_left_waiting {cap : Option Nat} {w w' : World} (hq : Quiet cap w) (hg : ∀ o ∈ w.objs, o.holdsChan = false)
    {f wk : Nat} :
    (Does w.free (.pollSend f wk) w' → ∃ e, w'.log = e :: w.free.log ∧ (e.resolves f = true ∨ ∃ i, e = .sendOk f i)) ∧
    (Does w.free (.pollReply f wk) w' → ∃ e, w'.log = e :: w.free.log ∧ e.resolves f = true) ∧
    (Does w.free (.pollJoin f wk) w' → w'.log = .joined f :: w.free.log) := by
  obtain ⟨th, hr, hth⟩ := id hq
  have k := kInv_reachable hr
  have fr := free_freed hq hg
  refine ⟨?_, ?_, ?_⟩
  · rintro ⟨w1, ms, hc, hm⟩
    simp only [call, free_objs] at hc
    cases ho : w.objs[f]? with
    | none => simp [ho] at hc
    | some o =>
      have hk := k.kw.objs f o ho
      have hgo := hg o (List.mem_of_getElem? ho)
      cases o with
      | send md i st =>
        obtain ⟨hmade, -⟩ := hk
        cases st with
        | new m rc => simp [Obj.holdsChan] at hgo
        | done =>
          simp [ho] at hc; obtain ⟨rfl, rfl⟩ := hc
          exact free_fin (w1 := w.free.setObj f .busy) hq hg hmade rfl rfl hm
        | waiting h =>
          simp [ho] at hc; obtain ⟨rfl, rfl⟩ := hc
          have h1 := (hq.own h).1
          have h2 := le_sumBy (oWs h) ho
          simp only [oWs, sWs, is1, if_true] at h2
          have h3 : wsActive w.ws h = true := by
            apply Classical.byContradiction; intro hn; simp [wsL, hn] at h1; omega
          have h5 : wsActive w.free.ws h = true := by
            have hf := free_ws w h
            cases hy : w.ws[h]? with
            | none => simp [wsActive, hy] at h3
            | some y =>
              rw [hy] at hf
              cases y <;> simp [wsActive, hy, WsCell.close] at h3 hf ⊢ <;> (try split at hf) <;> simp [hf]
          cases hm with | cons hm =>
          cases hy : w.free.ws[h]? with
          | none => simp [wsActive, hy] at h5
          | some y =>
            cases y with
            | gone => simp [wsActive, hy] at h5
            | active x m => exact absurd hy (fr.parked h x m)
            | delivered x =>
              simp [exec, hy] at hm
              exact free_fin (w1 := { w.free.setObj f .busy with ws := w.free.ws.set h .gone }) hq hg hmade rfl rfl hm
            | closed x =>
              simp [exec, hy] at hm
              cases hm
              exact ⟨.sendErr f i, rfl, .inl (by simp [Ev.resolves])⟩
      | _ => simp [ho] at hc
  · rintro ⟨w1, ms, hc, hm⟩
    simp only [call, free_objs] at hc
    cases ho : w.objs[f]? with
    | none => simp [ho] at hc
    | some o =>
      have hk := k.kw.objs f o ho
      cases o with
      | reply i =>
        rcases free_reply hq hg hk with ⟨r, x, h⟩ | ⟨x, h⟩
        · simp [ho, h] at hc; obtain ⟨rfl, rfl⟩ := hc; cases hm; exact ⟨_, rfl, by simp [Ev.resolves]⟩
        · simp [ho, h] at hc; obtain ⟨rfl, rfl⟩ := hc; cases hm; exact ⟨_, rfl, by simp [Ev.resolves]⟩
      | _ => simp [ho] at hc
  · rintro ⟨w1, ms, hc, hm⟩
    have h0 := free_rcv0 hq hg
    simp only [call, free_objs, free_lst] at hc
    cases ho : w.objs[f]? with
    | none => simp [ho] at hc
    | some o =>
      cases o with
      | join x =>
        cases x with
        | none => simp [ho] at hc; obtain ⟨rfl, rfl⟩ := hc; cases hm; rfl
        | some l =>
          rcases C23_notification_under_way hr ho h0 with ⟨y, hy⟩ | ⟨-, ms', hms, hmem⟩
          · simp only at hy; simp [ho, hy] at hc; obtain ⟨rfl, rfl⟩ := hc; cases hm; rfl
          · have := hth ms' hms; rw [this] at hmem; simp at hmem
      | _ => simp [ho] at hc

/-- Two sends of a channel with capacity 1 find the actor connected, a join handle is made, the last mailbox is dropped, then the sends
enter the channel: the first is queued, the second parks (compare `C11_refuted`). Last, the only address is dropped. -/
def freeSched : List Act :=
  [.call (.send 0), .call (.pollSend 2 7), .exec 1, .exec 1, .call (.send 0), .call (.pollSend 3 8), .exec 3, .exec 3,
   .call (.join 0), .exec 4, .exec 4, .call (.dropMailbox 1), .exec 5, .exec 5, .exec 5,
   .exec 1, .exec 1, .exec 1, .exec 3, .exec 3, .exec 3, .call (.dropAddr 0), .exec 6, .exec 6]

theorem free_wk {w : World} {j : Nat} {x : Resp} (hx : w.resp[j]? = some x) :
    ∃ y, w.free.resp[j]? = some y ∧ y.wk = x.wk := by
  simp only [World.free]
  obtain ⟨y, h1, h2⟩ := closeHandles_wk w.wOne (w := { w with wOne := [] }) hx
  obtain ⟨z, h3, h4⟩ := closeHandles_wk w.wAll (w := { (World.closeHandles _ _) with wAll := [] }) h1
  obtain ⟨u, h5, h6⟩ := killAll_wk _ (w := { (World.closeHandles _ _) with wRx := [], uq := [], bqs := [] }) h3
  exact ⟨u, h5, h6.trans (h4.trans h2)⟩

/-- **C47.** Nor does any of them sleep through it: every remaining future whose latest poll returned `Pending` with waker `wk` has been
woken with exactly that waker when the channel is freed. -/
theorem C47_everyone_woken {cap : Option Nat} {w : World} (hq : Quiet cap w) (hg : ∀ o ∈ w.objs, o.holdsChan = false)
    {f wk : Nat} {o : Obj} (ho : w.objs[f]? = some o) (ha : o.awaits = true) (hp : pendingWith f w.log = some wk) :
    w.free.wokenUp wk o := by
  obtain ⟨th, hr, hth⟩ := id hq
  have k := kInv_reachable hr
  have hk := k.kw.objs f o ho
  have hgo := hg o (List.mem_of_getElem? ho)
  have h1 := C21_registered_or_woken hr ho ha hp
  have hrep : ∀ i, Ev.made f i false ∈ w.log → (w.resp[i]? = some (.waiting (some wk)) ∨
      (∃ r, w.resp[i]? = some (.value r (some wk))) ∨ w.resp[i]? = some (.interrupted (some wk))) →
      (∃ r, w.free.resp[i]? = some (.value r (some wk))) ∨ w.free.resp[i]? = some (.interrupted (some wk)) := by
    intro i hm h2
    have h3 : ∃ x, w.resp[i]? = some x ∧ x.wk = some wk := by
      rcases h2 with h | ⟨r, h⟩ | h <;> exact ⟨_, h, rfl⟩
    obtain ⟨x, h3, h4⟩ := h3
    obtain ⟨y, h5, h6⟩ := free_wk h3
    rcases free_reply hq hg hm with ⟨r, x', h⟩ | ⟨x', h⟩
    · rw [h] at h5; simp at h5; subst h5; rw [h4] at h6; have h6 : x' = some wk := h6; subst h6; exact .inl ⟨r, h⟩
    · rw [h] at h5; simp at h5; subst h5; rw [h4] at h6; have h6 : x' = some wk := h6; subst h6; exact .inr h
  have hnone : ∀ i : Nat, w.resp[i]? = some .none → ¬ (w.resp[i]? = some (.waiting (some wk)) ∨
      (∃ r, w.resp[i]? = some (.value r (some wk))) ∨ w.resp[i]? = some (.interrupted (some wk))) := by
    intro i h; simp [h]
  cases o with
  | send md i st =>
    obtain ⟨hm, -⟩ := hk
    cases st with
    | new => simp [Obj.awaits] at ha
    | waiting h =>
      simp only [World.sleeps, World.wokenUp] at h1 ⊢
      have hf := free_ws w h
      rcases h1 with ⟨m, h1⟩ | h1 | h1
      · have := hq.regWs.reg h1
        rw [if_pos this, h1] at hf
        exact .inr hf
      · rw [h1] at hf; left; rw [hf]; split <;> rfl
      · rw [h1] at hf; right; rw [hf]; split <;> rfl
    | done =>
      have h3 := (k.made _ _ _ hm).2.2
      cases md with
      | bcast => exact absurd h1 (hnone i (h3.2 rfl))
      | ret => exact hrep i hm h1
      | detached => exact hrep i hm h1
  | reply i => exact hrep i hk h1
  | recv b st => simp [Obj.holdsChan] at hgo
  | join l =>
    cases l with
    | none => simp [Obj.awaits] at ha
    | some l =>
      simp only [World.sleeps, World.wokenUp, free_lst] at h1 ⊢
      rcases h1 with h1 | h1
      · rcases C23_notification_under_way hr ho (free_rcv0 hq hg) with ⟨y, hy⟩ | ⟨-, ms', hms, hmem⟩
        · simp only at hy h1; rw [h1] at hy; simp at hy
        · have := hth ms' hms; rw [this] at hmem; simp at hmem
      · exact h1
  | _ => simp [Obj.awaits] at ha

/-- C47, non-vacuity: a reachable state without owners in which a message is queued, a send is parked and a join handle exists; freeing
the channel destroys both messages, and the three futures resolve with `Interrupted`, `Disconnected`, and the join handle.
Meets the hypotheses of `C47_at_most_one_end`, `C47_nothing_leaks`, `C47_nobody_left_waiting`, `C47_everyone_woken`. -/
example : ∃ s, Reachable (some 1) s ∧ Quiet (some 1) s.w ∧ (∀ o ∈ s.w.objs, o.holdsChan = false) ∧
    s.w.uq.length = 1 ∧ s.w.parkedSend 3 .ret ⟨1, .valued 0⟩ ∧ s.w.objs[4]? = some (.join (some 0)) ∧
    pendingWith 2 s.w.log = some 7 ∧ pendingWith 3 s.w.log = some 8 ∧
    s.w.free.log.countP (Ev.endsMsg 0) = 1 ∧ s.w.free.log.countP (Ev.endsMsg 1) = 1 ∧ s.w.log.countP (Ev.endsMsg 0) = 0 ∧
    (∃ w', Does s.w.free (.pollSend 2 9) w' ∧ w'.log = .replyInt 2 0 :: s.w.free.log) ∧
    (∃ w', Does s.w.free (.pollSend 3 9) w' ∧ w'.log = .sendErr 3 1 :: s.w.free.log) ∧
    (∃ w', Does s.w.free (.pollJoin 4 9) w' ∧ w'.log = .joined 4 :: s.w.free.log) := by
  refine ⟨_, Reachable.run .init (as := freeSched) rfl, ⟨_, Reachable.run .init (as := freeSched) rfl, by decide⟩, by decide, by decide,
    ⟨0, some 8, by decide, by decide⟩, by decide, by decide, by decide, by decide, by decide, by decide,
    ⟨_, ⟨_, _, rfl, .cons .nil⟩, rfl⟩, ⟨_, ⟨_, _, rfl, .cons .nil⟩, rfl⟩, ⟨_, ⟨_, _, rfl, .nil⟩, rfl⟩⟩

end Xtra
