import Verif.Bq
/-! A broadcast queue lives exactly as long as something refers to it. -/

set_option linter.unusedSimpArgs false

namespace Xtra

/-- Objects that own broadcast queue `k`. -/
def oBq (k : Nat) : Obj → Nat
  | .mailbox b => is1 k b
  | .recv b _ => is1 k b
  | .message b _ => is1 k b
  | .dispatch b _ _ => is1 k b
  | _ => 0

/-- Running calls that own broadcast queue `k`. -/
def mBq (k : Nat) : Micro → Nat
  | .recvTry _ b _ => is1 k b
  | .recvPoll _ b _ _ => is1 k b
  | .recvBcast _ b _ _ => is1 k b
  | .cancel b _ => is1 k b
  | .dropBq b => is1 k b
  | _ => 0

theorem refs_congr {w w' : World} (h : w'.bq = w.bq) (k : Nat) : w'.refs k = w.refs k := by
  unfold World.refs; rw [h]

theorem items_congr {w w' : World} (h : w'.bq = w.bq) (k : Nat) : w'.items k = w.items k := by
  unfold World.items; rw [h]

/-- Registered broadcast queues exist and are registered once. -/
structure BqsOk (w : World) : Prop where
  nodup : w.bqs.Nodup
  lt : ∀ b ∈ w.bqs, b < w.bq.length

theorem sendBroadcast_bqlen (w : World) (m : Msg) : (w.sendBroadcast m).bq.length = w.bq.length := by
  simp [World.sendBroadcast, pushAll_length]

theorem sendBroadcast_bqs (w : World) (m : Msg) : (w.sendBroadcast m).bqs = w.bqs.filter w.alive := rfl

theorem BqsOk.send {w : World} (h : BqsOk w) (m : Msg) : BqsOk (w.sendBroadcast m) := by
  refine ⟨?_, ?_⟩
  · rw [sendBroadcast_bqs]; exact h.nodup.filter _
  · intro b hb
    rw [sendBroadcast_bqs] at hb
    rw [sendBroadcast_bqlen]; exact h.lt b (List.mem_filter.mp hb).1

theorem BqsOk.congr {w w' : World} (h : BqsOk w) (h1 : w'.bqs = w.bqs)
    (h2 : w'.bq.length = w.bq.length) : BqsOk w' := by
  refine ⟨by rw [h1]; exact h.nodup, ?_⟩
  rw [h1, h2]; exact h.lt

theorem popBroadcast_bqsOk {w w' : World} {b : Nat} {m : Msg} (r : RegWs w.ws w.wOne w.wAll)
    (hp : w.popBroadcast b = some (m, w')) (h : BqsOk w) : BqsOk w' := by
  have h0 : ∀ q, BqsOk (w.afterPop b q) := fun q => h.congr (by simp) (afterPop_bqlen w b q)
  obtain ⟨q, -, ⟨-, rfl⟩ | ⟨-, hg, rfl⟩ | ⟨-, h, wk, m', q', t, rfl⟩⟩ := popBroadcast_cases r.all hp
  · exact h0 q
  · exact (h0 q).congr rfl rfl
  · apply BqsOk.send; exact (h0 q).congr rfl rfl

theorem popBroadcast_refs {w w' : World} {b : Nat} {m : Msg} (r : RegWs w.ws w.wOne w.wAll)
    (hp : w.popBroadcast b = some (m, w')) (h : BqsOk w) (k : Nat) : w'.refs k = w.refs k := by
  obtain ⟨q, -, ⟨-, rfl⟩ | ⟨-, hg, rfl⟩ | ⟨-, h', wk, m', q', t, rfl⟩⟩ := popBroadcast_cases r.all hp
  · exact afterPop_refs w b q k
  · exact afterPop_refs w b q k
  · rw [sendBroadcast_refs _ _ (by simpa using h.nodup)]; exact afterPop_refs w b q k

theorem callR_bqs {w w' : World} {c : Call} {ms : List Micro} (h : CallR w c w' ms) :
    w'.bqs = w.bqs ∧ w'.bq.length = w.bq.length ∧ (∀ k, w'.items k = w.items k) := by
  cases h
  case next b _ _ =>
    refine ⟨by simp, ?_, ?_⟩
    · have := incBq_len ({ w with rcv := w.rcv + 1 } : World) b
      simpa [World.addObj] using this
    · intro k
      have := incBq_items ({ w with rcv := w.rcv + 1 } : World) b k
      simpa [World.addObj, World.items] using this
  all_goals exact ⟨by simp, by simp, fun k => items_congr (by simp) k⟩

theorem execR_bqsOk {w w' : World} {m : Micro} {ms : List Micro} (h : ExecR w m w' ms)
    (r : RegWs w.ws w.wOne w.wAll) (ho : BqsOk w) : BqsOk w' := by
  cases h
  case recv_all hp _ _ => exact (popBroadcast_bqsOk r hp ho).congr (by simp) (by simp)
  case recv_one hp _ _ =>
    exact ho.congr (by simp [World.popUnicast_bqs hp]) (by simp [World.popUnicast_bq hp])
  case recvBcast_some hp => exact (popBroadcast_bqsOk r hp ho).congr (by simp) (by simp)
  case critAll_sent => apply BqsOk.send; exact ho.congr rfl rfl
  case bcastShutdown => apply BqsOk.send; exact ho.congr rfl rfl
  case shutTx => exact ⟨by simp, by simp⟩
  case dropBq b => exact ho.congr (by simp) (decBq_len w b)
  case newBq =>
    refine ⟨?_, ?_⟩
    · simp only []
      rw [List.nodup_append]
      refine ⟨ho.nodup, by simp, ?_⟩
      intro a ha b hb
      have := ho.lt a ha; simp at hb; omega
    · intro b hb
      simp at hb ⊢
      rcases hb with hb | hb
      · have := ho.lt b hb; omega
      · omega
  all_goals exact ho.congr (by simp) (by simp)

theorem bqsOk_reachable {cap : Option Nat} {s : Sys} (h : Reachable cap s) : BqsOk s.w := by
  refine Reachable.inv (P := fun s => BqsOk s.w) ?_ ?_ ?_ h
  · exact ⟨by simp [init], by simp [init]⟩
  · intro s c w' ms _ ho hc
    exact ho.congr (callR_bqs hc).1 (callR_bqs hc).2.1
  · intro s t m rest w' ms hr ho ht he
    exact execR_bqsOk he (regWs_reachable hr) ho

theorem callR_refs {w w' : World} {c : Call} {ms : List Micro} (h : CallR w c w' ms) (k : Nat)
    (hle : ∀ k, sumBy (oBq k) w.objs ≤ w.refs k) :
    w'.refs k + sumBy (oBq k) w.objs = w.refs k + sumBy (oBq k) w'.objs + sumBy (mBq k) ms := by
  have key : ∀ f x y, w.objs[f]? = some x →
      sumBy (oBq k) (w.objs.set f y) + oBq k x = sumBy (oBq k) w.objs + oBq k y :=
    fun f x y h => sumBy_set _ y h
  cases h
  case next b ho hm =>
    have hpos : b < w.bq.length := by
      have h1 := le_sumBy (oBq b) ho
      have h2 := hle b
      have h3 : 1 ≤ w.refs b := by
        rename_i o
        cases o <;> simp [Obj.mbox] at hm <;> subst hm <;> simp [oBq] at h1 <;> omega
      apply alive_lt; rw [alive_iff]; omega
    have := incBq_refs ({ w with rcv := w.rcv + 1 } : World) b k
    have h2 : (({ w with rcv := w.rcv + 1 } : World).incBq b).addObj (.recv b .new) =
      (({ w with rcv := w.rcv + 1 } : World).incBq b).addObj (.recv b .new) := rfl
    have h3 : ((({ w with rcv := w.rcv + 1 } : World).incBq b).addObj (.recv b .new)).refs k =
      if k = b ∧ b < w.bq.length then w.refs b + 1 else w.refs k := this
    rw [h3]
    simp [mBq, oBq, is1, hpos]
    by_cases hk : k = b
    · subst hk; simp; omega
    · have hk' : ¬ b = k := fun e => hk e.symm
      simp [hk, hk']
  all_goals
    (rw [refs_congr (w := w) (by simp)]; simp [mBq, oBq, is1] <;> grind [mBq, oBq, is1, Obj.mbox])

theorem execR_refs {w w' : World} {m : Micro} {ms : List Micro} (h : ExecR w m w' ms) (hwf : WF w m)
    (r : RegWs w.ws w.wOne w.wAll) (ho : BqsOk w) (k : Nat) (hm : mBq k m ≤ w.refs k) :
    w'.refs k + sumBy (oBq k) w.objs + mBq k m = w.refs k + sumBy (oBq k) w'.objs + sumBy (mBq k) ms := by
  have key : ∀ f x y, w.objs[f]? = some x →
      sumBy (oBq k) (w.objs.set f y) + oBq k x = sumBy (oBq k) w.objs + oBq k y :=
    fun f x y h => sumBy_set _ y h
  cases h
  case recv_all hp _ _ =>
    simp only [WF] at hwf
    have h3 := fun a b => key _ _ (.message a b) hwf
    have h4 := popBroadcast_refs r hp ho k
    rw [refs_congr (World.yieldMsg_bq _ _ _ _) k, h4]
    simp [mBq, World.popBroadcast_objs hp, oBq] at h3 ⊢; rw [h3]; omega
  case recv_one hp _ _ =>
    simp only [WF] at hwf
    have h3 := fun a b => key _ _ (.message a b) hwf
    rw [refs_congr (w := w) (by simp [World.popUnicast_bq hp]) k]
    simp [mBq, World.popUnicast_objs hp, oBq] at h3 ⊢; rw [h3]; omega
  case recvBcast_some w1 hp =>
    simp only [WF] at hwf
    have h3 := fun a b => key _ _ (.message a b) hwf.1
    have h4 := popBroadcast_refs r hp ho k
    rw [refs_congr (w := w1) (by simp) k, h4]
    simp [mBq, World.popBroadcast_objs hp, oBq] at h3 ⊢; rw [h3]; omega
  case recvPoll_panic hc =>
    simp only [WF] at hwf
    obtain ⟨x, h1, h2, h3⟩ := hwf.2
    rw [h1] at hc; simp [h2, h3] at hc
  case shutRx => rw [refs_congr (w := w) (by simp)]; simp [mBq, sumBy_map, sumBy_eq_zero]
  case shutTx => rw [refs_congr (w := w) (by simp)]; simp [mBq]
  case critAll_sent => 
    rw [sendBroadcast_refs _ _ (by exact ho.nodup)]
    simp [mBq, World.refs]
  case bcastShutdown =>
    rw [sendBroadcast_refs _ _ (by exact ho.nodup)]
    simp [mBq, World.refs]
  case dropBq b =>
    rw [decBq_refs]
    simp [mBq, is1] at hm ⊢
    by_cases hk : k = b
    · subst hk; simp at hm ⊢; omega
    · have hk' : ¬ b = k := fun e => hk e.symm
      simp [hk, hk']
  case newBq o =>
    simp only [WF] at hwf
    have h3 := fun a => key _ _ (.mailbox a) hwf
    have h4 : ({ w with bq := w.bq ++ [⟨1, []⟩], bqs := w.bqs ++ [w.bq.length],
                        objs := w.objs.set o (.mailbox w.bq.length) } : World).refs k =
        w.refs k + is1 k w.bq.length := by
      unfold World.refs is1
      by_cases hl : k < w.bq.length
      · simp only []; rw [List.getElem?_append_left hl]
        have : ¬ w.bq.length = k := by omega
        simp [this]
      · have hn : w.bq[k]? = none := by simp; omega
        by_cases he : w.bq.length = k
        · subst he; simp
        · have : (w.bq ++ [(⟨1, []⟩ : BQ)])[k]? = none := by simp; omega
          simp only [this, hn]; simp [he]
    rw [h4]
    simp [mBq, oBq] at h3 ⊢; rw [h3]; omega
  all_goals
    (rw [refs_congr (w := w) (by simp)]; simp only [WF] at hwf; simp [mBq, oBq] <;> grind [mBq, oBq])

theorem refs_reachable {cap : Option Nat} {s : Sys} (h : Reachable cap s) :
    ∀ k, s.w.refs k = sumBy (oBq k) s.w.objs + tot (mBq k) s.th := by
  refine Reachable.inv (P := fun s => ∀ k, s.w.refs k = sumBy (oBq k) s.w.objs + tot (mBq k) s.th)
    ?_ ?_ ?_ h
  · intro k
    cases k <;> simp [init, oBq, is1, World.refs]
  · intro s c w' ms _ ho hc k
    have := callR_refs hc k (fun k => by have := ho k; omega)
    have := ho k
    simp; omega
  · intro s t m rest w' ms hr ho ht he k
    have h0 := tot_head (mBq k) ht
    have h2 := ho k
    have h1 := execR_refs he (wf_reachable hr ht) (regWs_reachable hr) (bqsOk_reachable hr) k (by omega)
    have h3 := tot_exec (mBq k) ms ht; simp only at *; omega

end Xtra
