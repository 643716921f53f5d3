import Verif.Queue
/-! Broadcast queue invariants. -/

set_option linter.unusedSimpArgs false

namespace Xtra

/-- Broadcast queues: heap order; `broadcast_tail` bounds every live queue; capacity. -/
structure BInv (w : World) : Prop where
  heap : ∀ b, Heap.Ordered Msg.le (w.items b)
  tail : ∀ {b : Nat}, b ∈ w.bqs → w.alive b = true → (w.items b).length ≤ w.tail
  bound : ∀ {c : Nat}, w.cap = some c → ∀ b, (w.items b).length ≤ c + sumBy evStop w.log
  tbound : ∀ {c : Nat}, w.cap = some c → w.tail ≤ c + sumBy evStop w.log

theorem bcFull_some {w : World} {c : Nat} (h : w.cap = some c) :
    w.bcFull = decide (c ≤ w.tail) := by unfold World.bcFull; rw [h]

theorem BInv.congr {w w' : World} (i : BInv w) (hi : ∀ b, w'.items b = w.items b)
    (hb : ∀ b ∈ w'.bqs, b ∈ w.bqs) (ha : ∀ b, w'.alive b = true → w.alive b = true)
    (ht : w'.tail = w.tail) (hc : w'.cap = w.cap)
    (hlog : sumBy evStop w.log ≤ sumBy evStop w'.log) : BInv w' := by
  refine ⟨fun b => by rw [hi]; exact i.heap b, fun h1 h2 => ?_, fun {c} h b => ?_, fun {c} h => ?_⟩
  · rw [hi, ht]; exact i.tail (hb _ h1) (ha _ h2)
  · rw [hc] at h; rw [hi]; have := i.bound h b; omega
  · rw [hc] at h; rw [ht]; have := i.tbound h; omega

theorem BInv.send {w : World} (i : BInv w) (o : BqsOk w) (m : Msg)
    (hf : w.bcFull = false ∨ m.prio = .shutdown) : BInv (w.sendBroadcast m) := by
  have hlog : sumBy evStop (w.sendBroadcast m).log =
      (if m.prio = .shutdown then 1 else 0) + sumBy evStop w.log := by
    simp [World.sendBroadcast, evStop]
  refine ⟨fun b => ?_, fun {b} h1 h2 => ?_, fun {c} h b => ?_, fun {c} h => ?_⟩
  · rw [sendBroadcast_items w m o.nodup]; split
    · exact Heap.push_heap Msg.total _ _ (i.heap b)
    · exact i.heap b
  · rw [sendBroadcast_bqs] at h1
    obtain ⟨h3, h4⟩ := List.mem_filter.mp h1
    rw [sendBroadcast_items w m o.nodup, if_pos ⟨h3, h4⟩, push_length]
    have := i.tail h3 h4
    show _ ≤ w.tail + 1
    omega
  · have hcap : w.cap = some c := by simpa using h
    have h0 := i.bound hcap b
    rw [hlog, sendBroadcast_items w m o.nodup]
    split
    · rename_i hb
      rw [push_length]
      have h1 := i.tail hb.1 hb.2
      rcases hf with hf | hf
      · rw [bcFull_some hcap] at hf; simp at hf; omega
      · simp [hf]; omega
    · omega
  · have hcap : w.cap = some c := by simpa using h
    have h0 := i.tbound hcap
    rw [hlog]
    show w.tail + 1 ≤ _
    rcases hf with hf | hf
    · rw [bcFull_some hcap] at hf; simp at hf; omega
    · simp [hf]; omega

theorem afterPop_bInv {w : World} {b : Nat} {m : Msg} {q : List Msg} (i : BInv w)
    (hq : Heap.pop Msg.le (w.items b) = some (m, q)) : BInv (w.afterPop b q) := by
  have hne := pop_ne hq
  have hit := afterPop_items hne q
  have hlen := pop_length hq
  have hb : ∀ {c : Nat}, w.cap = some c → ∀ b', ((w.afterPop b q).items b').length ≤ c + sumBy evStop w.log := by
    intro c hc b'
    rw [hit]; split
    · have := i.bound hc b; omega
    · exact i.bound hc b'
  refine ⟨fun b' => ?_, fun {b'} h1 h2 => ?_, fun {c} h b' => ?_, fun {c} h => ?_⟩
  · rw [hit]; split
    · exact Heap.pop_heap Msg.total (i.heap b) hq
    · exact i.heap b'
  · rw [afterPop_tail hne]; exact longest_ge _ h1 h2
  · simp only [afterPop_log]; exact hb (by simpa using h) b'
  · rw [afterPop_tail hne]; simp only [afterPop_log]
    exact longest_le _ _ (fun b' _ _ => hb (by simpa using h) b')

theorem popBroadcast_bInv {w w' : World} {b : Nat} {m : Msg} (r : RegWs w.ws w.wOne w.wAll)
    (o : BqsOk w) (hp : w.popBroadcast b = some (m, w')) (i : BInv w) : BInv w' := by
  obtain ⟨q, hq, hc⟩ := popBroadcast_cases r.all hp
  have hi := afterPop_bInv i hq
  have ho : BqsOk (w.afterPop b q) := o.congr (by simp) (afterPop_bqlen w b q)
  rcases hc with ⟨-, rfl⟩ | ⟨-, hg, rfl⟩ | ⟨hf, h', wk, m', q', t, rfl⟩
  · exact hi
  · exact hi.congr (fun _ => rfl) (fun _ h => h) (fun _ h => h) rfl rfl (Nat.le_refl _)
  · apply BInv.send
    · exact hi.congr (fun _ => rfl) (fun _ h => h) (fun _ h => h) rfl rfl (Nat.le_refl _)
    · exact ho.congr rfl rfl
    · left; exact hf

theorem alive_congr' {w w' : World} (h : w'.bq = w.bq) (k : Nat) : w'.alive k = w.alive k := by
  unfold World.alive; rw [h]

theorem execR_bInv {w w' : World} {m : Micro} {ms : List Micro} (h : ExecR w m w' ms)
    (r : RegWs w.ws w.wOne w.wAll) (o : BqsOk w) (i : BInv w) : BInv w' := by
  have hlog := sumBy_suffix evStop (execR_suffix h r)
  cases h
  case recv_all w1 hp _ _ =>
    exact (popBroadcast_bInv r o hp i).congr (fun b => items_congr (by simp) b) (fun b h => by simpa using h)
      (fun b h => (alive_congr' (by simp) b).symm.trans h) (by simp) (by simp) (by simp [evStop])
  case recvBcast_some w1 hp =>
    exact (popBroadcast_bInv r o hp i).congr (fun b => items_congr (by simp) b) (fun b h => by simpa using h)
      (fun b h => (alive_congr' (by simp) b).symm.trans h) (by simp) (by simp) (by simp [evStop])
  case recv_one hp _ _ =>
    exact i.congr (fun b => items_congr (by simp [World.popUnicast_bq hp]) b)
      (fun b h => by simpa [World.popUnicast_bqs hp] using h)
      (fun b h => (alive_congr' (by simp [World.popUnicast_bq hp]) b).symm.trans h)
      (by simp [World.popUnicast_tail hp]) (by simp [World.popUnicast_cap hp]) hlog
  case critAll_sent hf =>
    apply BInv.send
    · exact i.congr (fun b => rfl) (fun _ h => h) (fun _ h => h) rfl rfl (lateLog_log _ _ _)
    · exact o.congr rfl rfl
    · left; exact hf
  case bcastShutdown =>
    apply BInv.send
    · exact i.congr (fun b => rfl) (fun _ h => h) (fun _ h => h) rfl rfl (Nat.le_refl _)
    · exact o.congr rfl rfl
    · right; rfl
  case shutTx =>
    exact i.congr (fun b => items_congr (by simp) b) (fun b h => by simpa using h)
      (fun b h => (alive_congr' (by simp) b).symm.trans h) (by simp) (by simp) hlog
  case dropBq b =>
    have hle : ∀ b', ((w.decBq b).items b').length ≤ (w.items b').length := by
      intro b'; rw [decBq_items]; split <;> simp
    refine ⟨fun b' => ?_, fun {b'} h1 h2 => ?_, fun {c} h b' => ?_, fun {c} h => ?_⟩
    · rw [decBq_items]; split
      · exact Heap.ordered_nil _
      · exact i.heap b'
    · have h3 : w.alive b' = true := by
        rw [alive_iff] at h2 ⊢; rw [decBq_refs] at h2; split at h2
        · rename_i e; subst e; omega
        · exact h2
      have := i.tail (b := b') (by simpa using h1) h3
      have := hle b'; simp; omega
    · have := i.bound (by simpa using h) b'; have := hle b'; simp; omega
    · have := i.tbound (by simpa using h); simpa using this
  case newBq ob =>
    have hit : ∀ b', ({ w with bq := w.bq ++ [⟨1, []⟩], bqs := w.bqs ++ [w.bq.length], objs := w.objs.set ob (.mailbox w.bq.length) } : World).items b' = w.items b' := by
      intro b'
      unfold World.items
      simp only []
      by_cases hl : b' < w.bq.length
      · rw [List.getElem?_append_left hl]
      · have hn : w.bq[b']? = none := by simp; omega
        rw [hn]
        by_cases he : b' = w.bq.length
        · subst he; simp
        · have : (w.bq ++ [(⟨1, []⟩ : BQ)])[b']? = none := by simp; omega
          rw [this]
    refine ⟨fun b' => by rw [hit]; exact i.heap b', fun {b'} h1 h2 => ?_, fun {c} h b' => ?_, fun {c} h => ?_⟩
    · rw [hit]
      simp at h1
      rcases h1 with h1 | h1
      · have hl := o.lt b' h1
        refine i.tail h1 ?_
        unfold World.alive at h2 ⊢
        simp only [List.getElem?_append_left hl] at h2
        exact h2
      · subst h1
        have : w.items w.bq.length = [] := by simp [World.items]
        rw [this]; simp
    · rw [hit]; exact i.bound h b'
    · exact i.tbound h
  all_goals
    exact i.congr (fun b => items_congr (by simp) b) (fun b h => by simpa using h)
      (fun b h => (alive_congr' (by simp) b).symm.trans h) (by simp) (by simp) hlog

theorem callR_alive {w w' : World} {c : Call} {ms : List Micro} (h : CallR w c w' ms)
    (hle : ∀ k, sumBy (oBq k) w.objs ≤ w.refs k) (k : Nat) (ha : w'.alive k = true) :
    w.alive k = true := by
  cases h
  case next b ho hm =>
    have hpos : 1 ≤ w.refs b := by
      have h1 := le_sumBy (oBq b) ho
      have h2 := hle b
      rename_i o
      cases o <;> simp [Obj.mbox] at hm <;> subst hm <;> simp [oBq] at h1 <;> omega
    rw [alive_iff] at ha ⊢
    have := incBq_refs ({ w with rcv := w.rcv + 1 } : World) b k
    have h3 : ((({ w with rcv := w.rcv + 1 } : World).incBq b).addObj (.recv b .new)).refs k =
      if k = b ∧ b < w.bq.length then w.refs b + 1 else w.refs k := this
    rw [h3] at ha
    split at ha
    · rename_i h; rw [h.1]; omega
    · exact ha
  all_goals exact (alive_congr' (by simp) k).symm.trans ha

theorem bInv_reachable {cap : Option Nat} {s : Sys} (h : Reachable cap s) : BInv s.w := by
  refine Reachable.inv (P := fun s => BInv s.w) ?_ ?_ ?_ h
  · refine ⟨?_, ?_, ?_, ?_⟩
    · intro b; cases b <;> simp [init, World.items, Heap.ordered_nil]
    · intro b hb; simp [init] at hb; subst hb; simp [init, World.items]
    · intro c _ b; cases b <;> simp [init, World.items]
    · simp [init]
  · intro s c w' ms hr i hc
    obtain ⟨h1, h2, h3⟩ := callR_bqs hc
    have hw := callR_regWs hc
    exact i.congr h3 (fun b h => by rw [← h1]; exact h)
      (callR_alive hc (fun k => by have := refs_reachable hr k; omega)) hw.2.2.2.2.2.2.2.1 hw.2.2.2.2.2.2.2.2
      (sumBy_suffix _ (callR_suffix hc))
  · intro s t m rest w' ms hr i ht he
    exact execR_bInv he (regWs_reachable hr) (bqsOk_reachable hr) i

end Xtra
