import Verif.Idle
/-! Conservation of broadcasts per mailbox (C04, C36). -/

set_option linter.unusedSimpArgs false

namespace Xtra

/-- Broadcast `i` was put into mailbox `b`. -/
def eBs (b i : Nat) : Ev → Nat
  | .bsent m ts => if m.id = i ∧ b ∈ ts then 1 else 0
  | _ => 0

/-- Broadcast `i` was yielded by a receive future on mailbox `b`. -/
def eBr (b i : Nat) : Ev → Nat
  | .recv _ b' (.all m) => if m.id = i ∧ b' = b then 1 else 0
  | _ => 0

/-- Broadcasts put into mailbox `b` are in it or have been yielded (`d` of them are being yielded). -/
structure BC (b i d : Nat) (w : World) : Prop where
  le : sumBy (mid1 i) (w.items b) + sumBy (eBr b i) w.log + d ≤ sumBy (eBs b i) w.log
  eq : w.alive b = true → sumBy (mid1 i) (w.items b) + sumBy (eBr b i) w.log + d = sumBy (eBs b i) w.log
  fresh : w.bq.length ≤ b → sumBy (eBs b i) w.log = 0

theorem BC.congr {b i d : Nat} {w w' : World} (k : BC b i d w) (h1 : w'.items b = w.items b)
    (h2 : w'.alive b = true → w.alive b = true) (h3 : w.bq.length ≤ w'.bq.length)
    (h4 : sumBy (eBs b i) w'.log = sumBy (eBs b i) w.log)
    (h5 : sumBy (eBr b i) w'.log = sumBy (eBr b i) w.log) : BC b i d w' := by
  refine ⟨?_, fun h => ?_, fun h => ?_⟩
  · rw [h1, h4, h5]; exact k.le
  · rw [h1, h4, h5]; exact k.eq (h2 h)
  · rw [h4]; exact k.fresh (by omega)

theorem BC.send {b i d : Nat} {w : World} (k : BC b i d w) (o : BqsOk w) (m : Msg) :
    BC b i d (w.sendBroadcast m) := by
  have hit := sendBroadcast_items w m o.nodup b
  have hal : (w.sendBroadcast m).alive b = w.alive b := alive_congr (sendBroadcast_refs w m o.nodup b)
  have hlog : (w.sendBroadcast m).log = .bsent m (w.bqs.filter w.alive) :: w.log := rfl
  have hpush : ∀ l : List Msg, sumBy (mid1 i) (Heap.push Msg.le l m) = sumBy (mid1 i) l + mid1 i m :=
    fun l => sumBy_push i l m
  have hl := sendBroadcast_bqlen w m
  have h1 := k.le; have h2 := k.eq; have h3 := k.fresh
  refine ⟨?_, fun h => ?_, fun h => ?_⟩
  · rw [hit, hlog]; simp only [sumBy_cons, eBs, eBr, List.mem_filter]
    by_cases hc : b ∈ w.bqs ∧ w.alive b = true
    · rw [if_pos hc, hpush]; simp only [mid1, hc, and_self, and_true]; omega
    · rw [if_neg hc]; omega
  · rw [hal] at h
    have h2 := h2 h
    rw [hit, hlog]; simp only [sumBy_cons, eBs, eBr, List.mem_filter]
    by_cases hc : b ∈ w.bqs ∧ w.alive b = true
    · rw [if_pos hc, hpush]; simp only [mid1, hc, and_self, and_true]; omega
    · rw [if_neg hc]
      have : ¬ (m.id = i ∧ b ∈ w.bqs ∧ w.alive b = true) := fun h => hc h.2
      rw [if_neg this]; omega
  · rw [hl] at h
    have hnb : b ∉ w.bqs := fun hb => by have := o.lt b hb; omega
    rw [hlog]; simp [eBs, hnb, h3 h]

theorem BC.pop {b b0 i : Nat} {w w' : World} {m : Msg} (k : BC b i 0 w) (r : RegWs w.ws w.wOne w.wAll)
    (o : BqsOk w) (hp : w.popBroadcast b0 = some (m, w')) :
    BC b i (if b0 = b then mid1 i m else 0) w' := by
  have base : ∀ q, Heap.pop Msg.le (w.items b0) = some (m, q) → BC b i (if b0 = b then mid1 i m else 0) (w.afterPop b0 q) := by
    intro q hq
    have h1 := k.le; have h2 := k.eq; have h3 := k.fresh
    have hpop := sumBy_pop (i := i) hq
    have hal : (w.afterPop b0 q).alive b = w.alive b := alive_congr (afterPop_refs w b0 q b)
    have hlog : (w.afterPop b0 q).log = w.log := by simp
    have hit := afterPop_items (pop_ne hq) q b
    refine ⟨?_, fun h => ?_, fun h => ?_⟩
    · rw [hit, hlog]
      by_cases hb : b = b0
      · subst hb; simp; omega
      · have : ¬ b0 = b := fun h => hb h.symm
        simp [hb, this]; omega
    · rw [hal] at h; have h2 := h2 h
      rw [hit, hlog]
      by_cases hb : b = b0
      · subst hb; simp; omega
      · have : ¬ b0 = b := fun h => hb h.symm
        simp [hb, this]; omega
    · rw [afterPop_bqlen] at h; rw [hlog]; exact h3 h
  have h0 : ∀ q, BqsOk (w.afterPop b0 q) := fun q => o.congr (by simp) (afterPop_bqlen w b0 q)
  obtain ⟨q, hq, ⟨-, rfl⟩ | ⟨-, hg, rfl⟩ | ⟨-, h', wk, m', q', t, rfl⟩⟩ := popBroadcast_cases r.all hp
  · exact base q hq
  · exact (base q hq).congr rfl (fun h => h) (Nat.le_refl _) rfl rfl
  · apply BC.send
    · exact (base q hq).congr rfl (fun h => h) (Nat.le_refl _) rfl rfl
    · exact (h0 q).congr rfl rfl

theorem BC.yield {b b0 i : Nat} {w : World} {r : Nat} {m : Msg}
    (k : BC b i (if b0 = b then mid1 i m else 0) w) {cells : List RxCell} :
    BC b i 0 (({ w with cells := cells } : World).yieldMsg r b0 (.all m)) := by
  have h1 := k.le; have h2 := k.eq; have h3 := k.fresh
  have hit : (({ w with cells := cells } : World).yieldMsg r b0 (.all m)).items b = w.items b := items_congr (by simp) b
  have hal : (({ w with cells := cells } : World).yieldMsg r b0 (.all m)).alive b = w.alive b := alive_congr' (by simp) b
  have hlog : (({ w with cells := cells } : World).yieldMsg r b0 (.all m)).log = .recv r b0 (.all m) :: w.log := rfl
  have hx : (if m.id = i ∧ b0 = b then 1 else 0) = (if b0 = b then mid1 i m else 0) := by
    unfold mid1
    by_cases h1 : b0 = b <;> simp [h1]
  refine ⟨?_, fun h => ?_, fun h => ?_⟩
  · rw [hit, hlog]; simp only [sumBy_cons, eBs, eBr, hx]; omega
  · rw [hal] at h; have h2 := h2 h
    rw [hit, hlog]; simp only [sumBy_cons, eBs, eBr, hx]; omega
  · rw [hlog]; simp [eBs]; exact h3 (by simpa using h)

theorem execR_bc {w w' : World} {m : Micro} {ms : List Micro} (h : ExecR w m w' ms)
    (r : RegWs w.ws w.wOne w.wAll) (o : BqsOk w) {b i : Nat} (k : BC b i 0 w) : BC b i 0 w' := by
  have kl1 := lateLog_sum (eBs b i) (fun _ => rfl) w
  have kl2 := lateLog_sum (eBr b i) (fun _ => rfl) w
  cases h
  case recv_all hp _ _ => exact (k.pop r o hp).yield
  case recvBcast_some hp => exact (k.pop r o hp).yield
  case recv_one hp _ _ =>
    exact k.congr (items_congr (by simp [World.popUnicast_bq hp]) b)
      (fun h => (alive_congr' (by simp [World.popUnicast_bq hp]) b).symm.trans h)
      (by simp [World.popUnicast_bq hp]) (by simp [World.popUnicast_log hp, eBs]) (by simp [World.popUnicast_log hp, eBr])
  case critAll_sent =>
    apply BC.send
    · exact k.congr rfl (fun h => h) (Nat.le_refl _) (kl1 _) (kl2 _)
    · exact o.congr rfl rfl
  case bcastShutdown =>
    apply BC.send
    · exact k.congr rfl (fun h => h) (Nat.le_refl _) rfl rfl
    · exact o.congr rfl rfl
  case shutTx =>
    exact k.congr (items_congr (by simp) b) (fun h => (alive_congr' (by simp) b).symm.trans h) (by simp)
      (shutTx_drops _ (fun _ => rfl) w) (shutTx_drops _ (fun _ => rfl) w)
  case dropBq b0 =>
    have h1 := k.le; have h2 := k.eq; have h3 := k.fresh
    refine ⟨?_, fun h => ?_, fun h => ?_⟩
    · simp only [World.decBq_log]
      rw [decBq_items]; split
      · simp; omega
      · exact h1
    · simp only [World.decBq_log]
      rw [alive_iff, decBq_refs] at h
      rw [decBq_items]
      by_cases hb : b = b0
      · subst hb; simp at h
        rw [if_neg (by omega)]; exact h2 (by rw [alive_iff]; omega)
      · simp [hb] at h ⊢; exact h2 (by rw [alive_iff]; exact h)
    · simp only [World.decBq_log]; rw [decBq_len] at h; exact h3 h
  case newBq ob =>
    have h1 := k.le; have h2 := k.eq; have h3 := k.fresh
    refine ⟨?_, fun h => ?_, fun h => ?_⟩
    · rw [newBq_items]; exact h1
    · rw [newBq_items]
      by_cases hl : b < w.bq.length
      · refine h2 ?_
        unfold World.alive at h ⊢
        simp only [List.getElem?_append_left hl] at h; exact h
      · have := h3 (by omega)
        simp only at *; omega
    · exact h3 (by simp at h; omega)
  all_goals first
    | exact k.congr (items_congr (by simp) b) (fun h => (alive_congr' (by simp) b).symm.trans h) (by simp)
       (by simp [eBs, kl1]) (by simp [eBr, kl2])

theorem callR_eB {w w' : World} {c : Call} {ms : List Micro} (h : CallR w c w' ms) (b i : Nat) :
    sumBy (eBs b i) w'.log = sumBy (eBs b i) w.log ∧ sumBy (eBr b i) w'.log = sumBy (eBr b i) w.log := by
  cases h <;> simp [eBs, eBr]

theorem bc_reachable {cap : Option Nat} {s : Sys} (h : Reachable cap s) (b i : Nat) : BC b i 0 s.w := by
  refine Reachable.inv (P := fun s => BC b i 0 s.w) ?_ ?_ ?_ h
  · refine ⟨?_, ?_, ?_⟩ <;> cases b <;> simp [init, World.items]
  · intro s c w' ms hr k hc
    obtain ⟨h1, h2, h3⟩ := callR_bqs hc
    exact k.congr (h3 b) (callR_alive hc (fun k => by have := refs_reachable hr k; omega) b) (by simp [h2])
      (callR_eB hc b i).1 (callR_eB hc b i).2
  · intro s t m rest w' ms hr k ht he
    exact execR_bc he (regWs_reachable hr) (bqsOk_reachable hr) k

/-! ### registered queues -/

/-- While a mailbox exists, every live broadcast queue is registered. -/
def BAll (w : World) : Prop := ∀ b, w.alive b = true → b ∈ w.bqs ∨ w.rcv = 0

theorem BAll.congr {w w' : World} (k : BAll w) (h1 : ∀ b, w'.alive b = true → w.alive b = true)
    (h2 : ∀ b, b ∈ w.bqs → w.alive b = true → w'.alive b = true → b ∈ w'.bqs) (h3 : w.rcv = 0 → w'.rcv = 0) : BAll w' := by
  intro b hb
  rcases k b (h1 b hb) with h | h
  · exact .inl (h2 b h (h1 b hb) hb)
  · exact .inr (h3 h)

theorem BAll.send {w : World} (k : BAll w) (o : BqsOk w) (m : Msg) : BAll (w.sendBroadcast m) := by
  have hal : ∀ b, (w.sendBroadcast m).alive b = w.alive b :=
    fun b => alive_congr (sendBroadcast_refs w m o.nodup b)
  refine k.congr (fun b h => by rw [← hal b]; exact h) (fun b h1 h2 _ => ?_) (fun h => by simpa using h)
  rw [sendBroadcast_bqs]; exact List.mem_filter.mpr ⟨h1, h2⟩

theorem BAll.pop {b0 : Nat} {w w' : World} {m : Msg} (k : BAll w) (r : RegWs w.ws w.wOne w.wAll)
    (o : BqsOk w) (hp : w.popBroadcast b0 = some (m, w')) : BAll w' := by
  have base : ∀ q, BAll (w.afterPop b0 q) := fun q =>
    k.congr (fun b h => by rw [← alive_congr (afterPop_refs w b0 q b)]; exact h) (fun b h _ _ => by simpa using h)
      (fun h => by unfold World.afterPop; split <;> exact h)
  have h0 : ∀ q, BqsOk (w.afterPop b0 q) := fun q => o.congr (by simp) (afterPop_bqlen w b0 q)
  obtain ⟨q, hq, ⟨-, rfl⟩ | ⟨-, hg, rfl⟩ | ⟨-, h', wk, m', q', t, rfl⟩⟩ := popBroadcast_cases r.all hp
  · exact base q
  · exact (base q).congr (fun _ h => h) (fun _ h _ _ => h) (fun h => h)
  · apply BAll.send
    · exact (base q).congr (fun _ h => h) (fun _ h _ _ => h) (fun h => h)
    · exact (h0 q).congr rfl rfl

theorem execR_bAll {w w' : World} {m : Micro} {ms : List Micro} (h : ExecR w m w' ms)
    (r : RegWs w.ws w.wOne w.wAll) (o : BqsOk w) (hp0 : m = .shutTx → w.rcv = 0) (k : BAll w) : BAll w' := by
  have hz := execR_rcv_zero h
  cases h
  case recv_all hp _ _ =>
    exact (k.pop r o hp).congr (fun b h => (alive_congr' (by simp) b).symm.trans h) (fun b h _ _ => by simpa using h)
      (fun h => by simpa using h)
  case recvBcast_some hp =>
    exact (k.pop r o hp).congr (fun b h => (alive_congr' (by simp) b).symm.trans h) (fun b h _ _ => by simpa using h)
      (fun h => by simpa using h)
  case recv_one hp _ _ =>
    exact k.congr (fun b h => (alive_congr' (by simp [World.popUnicast_bq hp]) b).symm.trans h)
      (fun b h _ _ => by simpa [World.popUnicast_bqs hp] using h) hz
  case critAll_sent =>
    apply BAll.send
    · exact k.congr (fun _ h => h) (fun _ h _ _ => h) (fun h => h)
    · exact o.congr rfl rfl
  case bcastShutdown =>
    apply BAll.send
    · exact k.congr (fun _ h => h) (fun _ h _ _ => h) (fun h => h)
    · exact o.congr rfl rfl
  case shutTx => intro b _; exact .inr (by simpa using hp0 rfl)
  case dropBq b0 =>
    refine k.congr (fun b h => ?_) (fun b h _ _ => by simpa using h) hz
    rw [alive_iff] at h ⊢; rw [decBq_refs] at h; split at h
    · rename_i e; subst e; omega
    · exact h
  case newBq ob =>
    intro b hb
    by_cases hl : b < w.bq.length
    · have : w.alive b = true := by
        unfold World.alive at hb ⊢
        simp only [List.getElem?_append_left hl] at hb; exact hb
      rcases k b this with h | h
      · exact .inl (by simp [h])
      · exact .inr h
    · have := alive_lt hb
      simp at this
      exact .inl (by simp; right; omega)
  all_goals
    exact k.congr (fun b h => (alive_congr' (by simp) b).symm.trans h) (fun b h _ _ => by simpa using h) hz

theorem bAll_reachable {cap : Option Nat} {s : Sys} (h : Reachable cap s) : BAll s.w := by
  refine Reachable.inv (P := fun s => BAll s.w) ?_ ?_ ?_ h
  · intro b hb
    have := alive_lt hb
    simp [init] at this; subst this; simp [init]
  · intro s c w' ms hr k hc
    obtain ⟨h1, h2, h3⟩ := callR_bqs hc
    refine k.congr (callR_alive hc (fun k => by have := refs_reachable hr k; omega)) (fun b h _ _ => by rw [h1]; exact h)
      (fun h => rcv_zero_call hr hc h)
  · intro s t m rest w' ms hr k ht he
    refine execR_bAll he (regWs_reachable hr) (bqsOk_reachable hr) (fun h => ?_) k
    subst h
    apply shutTx_pending hr
    have := tot_head mShutTx ht; simp [mShutTx] at this; omega

end Xtra
