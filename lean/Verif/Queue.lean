import Verif.BqRef
/-! Queue invariants: heap order, capacity, idle receivers. -/

set_option linter.unusedSimpArgs false

namespace Xtra

/-- 1 for an event "a cancelled receive future put its message back". -/
def evReq : Ev → Nat
  | .requeued _ => 1
  | _ => 0

/-- 1 for an event "a `stop_all` notice was accepted". -/
def evStop : Ev → Nat
  | .bsent m _ => if m.prio = .shutdown then 1 else 0
  | _ => 0

theorem push_length (l : List Msg) (m : Msg) : (Heap.push Msg.le l m).length = l.length + 1 := by
  have := (Heap.push_perm Msg.le l m).length_eq; simpa using this

theorem pop_length {l q : List Msg} {m : Msg} (h : Heap.pop Msg.le l = some (m, q)) :
    l.length = q.length + 1 := by
  have := (Heap.pop_perm h).length_eq; simpa using this

theorem push_ne_nil (l : List Msg) (m : Msg) : Heap.push Msg.le l m ≠ [] := by
  intro h; have := push_length l m; rw [h] at this; simp at this

/-! ### unicast queue -/

/-- Unicast queue: heap order; nothing queued while somebody is registered as idle; parked senders
only while the queue is full; capacity. -/
structure UInv (w : World) : Prop where
  heap : Heap.Ordered Msg.le w.uq
  idle : w.uq ≠ [] → w.wRx = []
  parked : ∀ {h : Nat} {wk : Option Nat} {m : Msg}, h ∈ w.wOne → w.ws[h]? = some (.active wk m) →
    w.uniFull = true
  bound : ∀ {c : Nat}, w.cap = some c → w.uq.length ≤ c + sumBy evReq w.log

theorem uniFull_some {w : World} {c : Nat} (h : w.cap = some c) :
    w.uniFull = decide (c ≤ w.uq.length) := by unfold World.uniFull; rw [h]

theorem uniFull_none {w : World} (h : w.cap = none) : w.uniFull = false := by
  unfold World.uniFull; rw [h]

theorem uniFull_mono {w w' : World} (hc : w'.cap = w.cap) (hl : w.uq.length ≤ w'.uq.length)
    (h : w.uniFull = true) : w'.uniFull = true := by
  unfold World.uniFull at *
  rw [hc]
  cases hcap : w.cap with
  | none => simp [hcap] at h
  | some c => simp [hcap] at h ⊢; omega

/-- The log grew and the queue is unchanged. -/
theorem UInv.congr {w w' : World} (i : UInv w) (hu : w'.uq = w.uq) (hr : w'.wRx = w.wRx ∨ w'.wRx = [])
    (ho : ∀ {h : Nat} {wk : Option Nat} {m : Msg}, h ∈ w'.wOne → w'.ws[h]? = some (.active wk m) →
      ∃ h wk m, h ∈ w.wOne ∧ w.ws[h]? = some (.active wk m))
    (hc : w'.cap = w.cap) (hlog : sumBy evReq w.log ≤ sumBy evReq w'.log) : UInv w' := by
  refine ⟨by rw [hu]; exact i.heap, ?_, ?_, ?_⟩
  · intro h; rw [hu] at h
    rcases hr with hr | hr
    · rw [hr]; exact i.idle h
    · exact hr
  · intro h wk m h1 h2
    obtain ⟨h', wk', m', h3, h4⟩ := ho h1 h2
    exact uniFull_mono hc (by rw [hu]; exact Nat.le_refl _) (i.parked h3 h4)
  · intro c h
    rw [hc] at h; have := i.bound h; rw [hu]; omega

/-- The history only grows. -/
theorem callR_suffix {w w' : World} {c : Call} {ms : List Micro} (h : CallR w c w' ms) :
    w.log <:+ w'.log := by
  cases h <;> simp

theorem closeHandles_suffix (hs : List Nat) (w : World) : w.log <:+ (w.closeHandles hs).log := by
  induction hs generalizing w with
  | nil => simp [World.closeHandles]
  | cons h hs ih =>
    simp only [World.closeHandles]
    refine List.IsSuffix.trans ?_ (ih _)
    unfold World.closeHandle
    split <;> simp [World.kill]

theorem killAll_suffix (ms : List Msg) (w : World) : w.log <:+ (w.killAll ms).log := by
  induction ms generalizing w with
  | nil => simp [World.killAll]
  | cons h hs ih =>
    simp only [World.killAll]
    refine List.IsSuffix.trans ?_ (ih _)
    simp [World.kill]

theorem shutTx_suffix (w : World) : w.log <:+ w.shutTx.log := by
  simp only [World.shutTx]
  refine List.IsSuffix.trans ?_ (closeHandles_suffix _ _)
  refine List.IsSuffix.trans ?_ (closeHandles_suffix _ _)
  exact killAll_suffix w.uq ({ w with lst := w.lst.map LCell.notify, rang := true, uq := [], bqs := [] } : World)

theorem lateLog_suffix (w : World) (m : Msg) : w.log <:+ w.lateLog m := by
  unfold World.lateLog; split <;> simp

theorem popBroadcast_log {w w' : World} {b : Nat} {m : Msg} (r : RegWs w.ws w.wOne w.wAll)
    (hp : w.popBroadcast b = some (m, w')) : w'.log = w.log ∨ ∃ m' ts, w'.log = .bsent m' ts :: w.log := by
  obtain ⟨q, -, ⟨-, rfl⟩ | ⟨-, hg, rfl⟩ | ⟨-, h', wk, m', q', t, rfl⟩⟩ := popBroadcast_cases r.all hp
  · left; simp
  · left; simp
  · right
    refine ⟨m', (w.afterPop b q).bqs.filter (w.afterPop b q).alive, ?_⟩
    simp only [World.sendBroadcast, afterPop_log]; rfl

theorem popBroadcast_suffix {w w' : World} {b : Nat} {m : Msg} (r : RegWs w.ws w.wOne w.wAll)
    (hp : w.popBroadcast b = some (m, w')) : w.log <:+ w'.log := by
  rcases popBroadcast_log r hp with h | ⟨m', ts, h⟩ <;> rw [h] <;> simp

theorem execR_suffix {w w' : World} {m : Micro} {ms : List Micro} (h : ExecR w m w' ms)
    (r : RegWs w.ws w.wOne w.wAll) : w.log <:+ w'.log := by
  cases h
  case recv_all hp _ _ =>
    refine (popBroadcast_suffix r hp).trans ?_; simp [World.yieldMsg, World.ev]
  case recv_one hp _ _ => simp [World.yieldMsg, World.ev, World.popUnicast_log hp]
  case recvBcast_some hp =>
    refine (popBroadcast_suffix r hp).trans ?_; simp [World.yieldMsg, World.ev]
  case shutTx => exact shutTx_suffix w
  case critAll_park => exact lateLog_suffix w _
  case critOne_park => exact lateLog_suffix w _
  case critOne_queue => exact lateLog_suffix w _
  case critOne_hand => exact lateLog_suffix w _
  case critAll_sent m' _ _ _ =>
    refine (lateLog_suffix w m').trans ?_; simp [World.sendBroadcast]
  case bcastShutdown => simp [World.sendBroadcast]
  all_goals first
    | (simp [World.kill, World.yieldMsg, World.ev]; done)
    | (simp only [World.kill, World.yieldMsg, World.ev, World.setObj]
       exact ⟨[_, _], rfl⟩)

theorem sumBy_suffix {α : Type _} (g : α → Nat) {l l' : List α} (h : l <:+ l') :
    sumBy g l ≤ sumBy g l' := by
  obtain ⟨t, rfl⟩ := h; simp

theorem lateLog_log (g : Ev → Nat) (w : World) (m : Msg) : sumBy g w.log ≤ sumBy g (w.lateLog m) :=
  sumBy_suffix g (lateLog_suffix w m)

theorem popUnicast_uInv {w w' : World} {m : Msg} (r : RegWs w.ws w.wOne w.wAll)
    (hp : w.popUnicast = some (m, w')) (i : UInv w) : UInv w' := by
  obtain ⟨q, hq, hc⟩ := popUnicast_cases r.one hp
  have hne := pop_ne hq
  have hlen := pop_length hq
  have hheap := Heap.pop_heap Msg.total i.heap hq
  have hidle := i.idle hne
  rcases hc with ⟨hf, rfl⟩ | ⟨hf, hg, rfl⟩ | ⟨hf, h, wk, m', q', t, rfl⟩
  · exact ⟨hheap, fun _ => hidle, fun _ _ => hf, fun {c} hcap => by
      have := i.bound hcap; simp; omega⟩
  · exact ⟨hheap, fun _ => hidle, fun h => by simp at h, fun {c} hcap => by
      have := i.bound hcap; simp; omega⟩
  · have h1 : w.uniFull = true := i.parked t.mem t.cell
    refine ⟨Heap.push_heap Msg.total _ _ hheap, fun _ => hidle, ?_, ?_⟩
    · intro _ _ _ _ _
      refine uniFull_mono (w := w) rfl ?_ h1
      rw [push_length]; omega
    · intro c hcap
      have := i.bound hcap
      simp only [push_length]; omega

theorem popBroadcast_uInv {w w' : World} {b : Nat} {m : Msg} (r : RegWs w.ws w.wOne w.wAll)
    (hp : w.popBroadcast b = some (m, w')) (i : UInv w) : UInv w' := by
  have hlog : sumBy evReq w.log ≤ sumBy evReq w'.log := by
    rcases popBroadcast_log r hp with h | ⟨m', ts, h⟩ <;> rw [h] <;> simp
  have hn := List.nodup_append.mp r.nodup
  obtain ⟨q, -, ⟨-, rfl⟩ | ⟨-, hg, rfl⟩ | ⟨-, h', wk, m', q', t, rfl⟩⟩ := popBroadcast_cases r.all hp
  · exact i.congr (by simp) (by simp) (fun h1 h2 => ⟨_, _, _, by simpa using h1, by simpa using h2⟩)
      (by simp) hlog
  · exact i.congr (by simp) (by simp) (fun h1 h2 => ⟨_, _, _, by simpa using h1, by simpa using h2⟩)
      (by simp) hlog
  · refine i.congr (by simp) (.inr rfl) ?_ (by simp) hlog
    intro h wk' m1 h1 h2
    simp at h1 h2
    have : h' ≠ h := by rintro rfl; exact hn.2.2 h' h1 h' t.mem rfl
    rw [List.getElem?_set_ne this] at h2
    exact ⟨_, _, _, h1, h2⟩

theorem execR_uInv {w w' : World} {m : Micro} {ms : List Micro} (h : ExecR w m w' ms)
    (r : RegWs w.ws w.wOne w.wAll) (i : UInv w) : UInv w' := by
  have hlog := sumBy_suffix evReq (execR_suffix h r)
  have act : ∀ {h : Nat} {wk : Option Nat} {m : Msg}, h ∈ w.wOne → w.ws[h]? = some (.active wk m) →
      ∃ h wk m, h ∈ w.wOne ∧ w.ws[h]? = some (.active wk m) := fun h1 h2 => ⟨_, _, _, h1, h2⟩
  have setg : ∀ (x : Nat) {h : Nat} {wk : Option Nat} {m : Msg}, h ∈ w.wOne →
      (w.ws.set x .gone)[h]? = some (.active wk m) →
      ∃ h wk m, h ∈ w.wOne ∧ w.ws[h]? = some (.active wk m) := by
    intro x h wk m h1 h2
    by_cases hk : x = h
    · subst hk
      have hl := (List.getElem?_eq_some_iff.mp h2).1
      simp at hl
      rw [List.getElem?_set_self hl] at h2; simp at h2
    · rw [List.getElem?_set_ne hk] at h2; exact ⟨_, _, _, h1, h2⟩
  cases h
  case recv_all hp _ _ =>
    exact (popBroadcast_uInv r hp i).congr (by simp) (by simp)
      (fun h1 h2 => ⟨_, _, _, by simpa using h1, by simpa using h2⟩) (by simp) (by simp [evReq])
  case recv_one hp _ _ =>
    exact (popUnicast_uInv r hp i).congr (by simp) (by simp)
      (fun h1 h2 => ⟨_, _, _, by simpa using h1, by simpa using h2⟩) (by simp) (by simp [evReq])
  case recvBcast_some hp =>
    exact (popBroadcast_uInv r hp i).congr (by simp) (by simp)
      (fun h1 h2 => ⟨_, _, _, by simpa using h1, by simpa using h2⟩) (by simp) (by simp [evReq])
  case critAll_park =>
    refine i.congr rfl (.inl rfl) ?_ rfl (lateLog_log _ _ _)
    intro h wk m h1 h2
    have hl : h < w.ws.length := by
      rcases r.one h h1 with ⟨_, _, hx⟩ | hx <;> exact (List.getElem?_eq_some_iff.mp hx).1
    simp only [List.getElem?_append_left hl] at h2
    exact act h1 h2
  case critAll_sent =>
    refine i.congr (by simp) (.inr rfl) (fun h1 h2 => act (by simpa using h1) (by simpa using h2)) (by simp) ?_
    simp only [World.sendBroadcast, sumBy_cons]
    exact Nat.le_trans (lateLog_log _ _ _) (Nat.le_add_left _ _)
  case critOne_hand hw hne hc =>
    have hu : w.uq = [] := by
      cases hq : w.uq with
      | nil => rfl
      | cons a l => have := i.idle (by simp [hq]); rw [hw] at this; simp at this
    refine ⟨i.heap, fun h => (h hu).elim, fun h1 h2 => ?_, fun {c} hcap => ?_⟩
    · exact uniFull_mono (w := w) rfl (Nat.le_refl _) (i.parked h1 h2)
    · simp [hu]
  case critOne_park m' _ _ _ hne hf =>
    refine ⟨i.heap, fun _ => rfl, fun _ _ => ?_, fun {c} hcap => ?_⟩
    · exact uniFull_mono (w := w) rfl (Nat.le_refl _) hf
    · have := i.bound hcap; have := lateLog_log evReq w m'; simp only at *; omega
  case critOne_queue m' _ _ _ hne hf =>
    refine ⟨Heap.push_heap Msg.total _ _ i.heap, fun _ => rfl, fun h1 h2 => ?_, fun {c} hcap => ?_⟩
    · have := i.parked h1 h2; rw [hf] at this; simp at this
    · simp only [push_length]
      rw [uniFull_some (w := w) hcap] at hf; simp at hf; omega
  case requeue_hand hw hne hc =>
    have hu : w.uq = [] := by
      cases hq : w.uq with
      | nil => rfl
      | cons a l => have := i.idle (by simp [hq]); rw [hw] at this; simp at this
    refine ⟨i.heap, fun h => (h hu).elim, fun h1 h2 => ?_, fun {c} hcap => ?_⟩
    · exact uniFull_mono (w := w) rfl (Nat.le_refl _) (i.parked h1 h2)
    · simp [hu]
  case requeue_queue hne =>
    refine ⟨Heap.push_heap Msg.total _ _ i.heap, fun _ => rfl, fun h1 h2 => ?_, fun {c} hcap => ?_⟩
    · refine uniFull_mono (w := w) rfl ?_ (i.parked h1 h2)
      simp only [push_length]; omega
    · have := i.bound hcap
      simp only [push_length, sumBy_cons, evReq]; omega
  case recv_wait hu _ _ =>
    refine ⟨i.heap, fun h => (h hu).elim, fun h1 h2 => ?_, fun {c} hcap => ?_⟩
    · exact uniFull_mono (w := w) rfl (Nat.le_refl _) (i.parked h1 h2)
    · simp [hu]
  case shutTx =>
    refine ⟨by simp [Heap.ordered_nil], fun h => by simp at h, fun h1 => by simp at h1, fun {c} hcap => ?_⟩
    simp
  case pollWs_active hh _ _ _ hc =>
    refine i.congr (by simp) (by simp) ?_ (by simp) (by simp [evReq])
    intro h wk m h1 h2
    simp at h1 h2
    by_cases hk : hh = h
    · subst hk; exact ⟨_, _, _, h1, hc⟩
    · rw [List.getElem?_set_ne hk] at h2; exact ⟨_, _, _, h1, h2⟩
  case pollWs_delivered hc => exact i.congr (by simp) (by simp) (setg _) (by simp) hlog
  case pollWs_closed hc => exact i.congr (by simp) (by simp) (fun h1 h2 => setg _ (by simpa using h1) (by simpa using h2)) (by simp) hlog
  case dropWs_active hc => exact i.congr (by simp) (by simp) (fun h1 h2 => setg _ (by simpa using h1) (by simpa using h2)) (by simp) hlog
  case dropWs_other hc => exact i.congr (by simp) (by simp) (setg _) (by simp) hlog
  all_goals exact i.congr (by simp) (by first | exact .inl rfl | exact .inr rfl | simp) (fun h1 h2 => act (by simpa using h1) (by simpa using h2)) (by simp) hlog

theorem uInv_reachable {cap : Option Nat} {s : Sys} (h : Reachable cap s) : UInv s.w := by
  refine Reachable.inv (P := fun s => UInv s.w) ?_ ?_ ?_ h
  · exact ⟨Heap.ordered_nil _, by simp [init], by simp [init], by simp [init]⟩
  · intro s c w' ms _ i hc
    obtain ⟨h1, h2, h3, h4, h5, h6, h7, h8, h9⟩ := callR_regWs hc
    exact i.congr h4 (.inl h5) (fun a b => ⟨_, _, _, by rw [← h2]; exact a, by rw [← h1]; exact b⟩) h9
      (sumBy_suffix _ (callR_suffix hc))
  · intro s t m rest w' ms hr i ht he
    exact execR_uInv he (regWs_reachable hr) i

end Xtra
