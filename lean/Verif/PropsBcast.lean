import Verif.PropsLen
/-! # C30, C08: parked broadcasts, as long as no mailbox was dropped -/

set_option linter.unusedSimpArgs false

namespace Xtra

/-- Broadcasts are parked only while the channel's broadcast length is at capacity. -/
def BP (w : World) : Prop := ∀ h ∈ w.wAll, ∀ wk m, w.ws[h]? = some (.active wk m) → w.bcFull = true

theorem bcFull_mono {w w' : World} (hc : w'.cap = w.cap) (ht : w.tail ≤ w'.tail) (h : w.bcFull = true) : w'.bcFull = true := by
  unfold World.bcFull at *
  rw [hc]
  cases hx : w.cap with
  | none => simp [hx] at h
  | some c => simp [hx] at h ⊢; omega

theorem BP.congr {w w' : World} (h : BP w) (hc : w'.cap = w.cap) (ht : w.tail ≤ w'.tail) (hq : ∀ x ∈ w'.wAll, x ∈ w.wAll)
    (hs : ∀ (x : Nat) wk m, x ∈ w'.wAll → w'.ws[x]? = some (.active wk m) → ∃ wk' m', w.ws[x]? = some (.active wk' m')) : BP w' := by
  intro x hx wk m hw
  obtain ⟨wk', m', h1⟩ := hs x wk m hx hw
  exact bcFull_mono hc ht (h x (hq x hx) _ _ h1)

theorem set_active {ws : List WsCell} {k : Nat} {y : WsCell} (hy : (∃ wk m, y = .active wk m) → ∃ wk m, ws[k]? = some (.active wk m))
    (x : Nat) (wk : Option Nat) (m : Msg) (h : (ws.set k y)[x]? = some (.active wk m)) : ∃ wk' m', ws[x]? = some (.active wk' m') := by
  rw [List.getElem?_set] at h
  split at h
  · rename_i e; subst e
    split at h <;> simp at h
    exact hy ⟨_, _, h⟩
  · exact ⟨_, _, h⟩

theorem Takes.sub {ws : List WsCell} {q q' : List Nat} {h : Nat} {wk : Option Nat} {m : Msg} (t : Takes ws q h wk m q') {x : Nat}
    (hx : x ∈ q') : x ∈ q := by
  obtain ⟨p, -, e⟩ := t.pos
  subst e
  exact (List.mem_filter.mp (List.mem_of_mem_eraseIdx hx)).1

/-- The longest broadcast mailbox after one broadcast was taken. -/
theorem afterPop_tail_ge {w : World} {b : Nat} {m : Msg} {q : List Msg} (k : BAll w) (hr : w.rcv ≠ 0) (ht : Tight w)
    (hq : Heap.pop Msg.le (w.items b) = some (m, q)) : w.tail ≤ (w.afterPop b q).tail + 1 := by
  have hne := pop_ne hq
  rw [afterPop_tail hne]
  rcases ht with h | ⟨b', h1, h2⟩
  · omega
  · have hin : b' ∈ w.bqs := by
      rcases k b' h1 with h | h
      · exact h
      · exact absurd h hr
    have h3 := longest_ge (w.afterPop b q) (b := b') (by simpa using hin) ((alive_congr (afterPop_refs w b q b')).trans h1)
    rw [afterPop_items hne] at h3
    split at h3
    · rename_i e; subst e
      have := (Heap.pop_perm hq).length_eq
      simp at this
      omega
    · omega

theorem pop_bp {w w' : World} {b : Nat} {m : Msg} (r : RegWs w.ws w.wOne w.wAll) (k : BAll w) (hr : w.rcv ≠ 0) (ht : Tight w) (hp : BP w)
    (h : w.popBroadcast b = some (m, w')) : BP w' := by
  obtain ⟨q, hq, ⟨hf, rfl⟩ | ⟨-, hg, rfl⟩ | ⟨-, l, wk, m', q', t, rfl⟩⟩ := popBroadcast_cases r.all h
  · intro x _ _ _ _; exact hf
  · intro x hx; simp at hx
  · intro x hx wk2 m2 hw
    have h1 : x ∈ w.wAll := t.sub (by simpa using hx)
    obtain ⟨_, _, h2⟩ := set_active (ws := w.ws) (k := l) (y := .delivered wk) (by rintro ⟨_, _, e⟩; simp at e) x wk2 m2 (by simpa using hw)
    have h3 := hp x h1 _ _ h2
    have h4 := afterPop_tail_ge k hr ht hq
    unfold World.bcFull at h3 ⊢
    have hc : (({ w.afterPop b q with ws := w.ws.set l (.delivered wk), wAll := q' } : World).sendBroadcast m').cap = w.cap := by simp
    rw [hc]
    cases hx : w.cap with
    | none => simp [hx] at h3
    | some c => simp [hx] at h3 ⊢; simp [World.sendBroadcast]; omega

theorem exec_bp {cap : Option Nat} {s : Sys} {t : Nat} {mc : Micro} {rest ms : List Micro} {w' : World} (h : Reachable cap s)
    (ht : s.th[t]? = some (mc :: rest)) (he : ExecR s.w mc w' ms) (htt : Tight s.w) (hp : BP s.w) : BP w' := by
  have r := regWs_reachable h
  have k := bAll_reachable h
  have hh2 := @recv_rcv cap s t mc rest h ht
  cases he
  case recv_all w1 hx _ _ => exact (pop_bp r k (hh2 rfl) htt hp hx).congr (by simp) (by simp) (by simp) (fun x wk m _ h => ⟨wk, m, by simpa using h⟩)
  case recvBcast_some w1 hx => exact (pop_bp r k (hh2 rfl) htt hp hx).congr (by simp) (by simp) (by simp) (fun x wk m _ h => ⟨wk, m, by simpa using h⟩)
  case recv_one w1 hx _ _ =>
    refine hp.congr (by simp [World.popUnicast_cap hx]) (by simp [World.popUnicast_tail hx])
      (by intro x h; simpa [World.popUnicast_wAll hx] using h) ?_
    intro x wk m _ hw
    obtain ⟨q, -, ⟨-, rfl⟩ | ⟨-, -, rfl⟩ | ⟨-, l, wk', m', q', t, rfl⟩⟩ := popUnicast_cases r.one hx
    · exact ⟨_, _, by simpa using hw⟩
    · exact ⟨_, _, by simpa using hw⟩
    · exact set_active (ws := s.w.ws) (k := l) (y := .delivered wk') (by rintro ⟨_, _, e⟩; simp at e) x wk m (by simpa using hw)
  case critAll_park hf => intro x _ _ _ _; exact hf
  case critAll_sent hf =>
    intro x hx wk m hw
    have := hp x (by simpa using hx) wk m (by simpa using hw)
    rw [hf] at this; simp at this
  case critOne_park f md m rc wk _ _ _ =>
    refine hp.congr rfl (Nat.le_refl _) (fun _ h => h) ?_
    intro x wk2 m2 hx hw
    have hl : x < s.w.ws.length := by
      rcases r.all x hx with ⟨_, _, h⟩ | h <;> exact (List.getElem?_eq_some_iff.mp h).1
    exact ⟨_, _, by simpa [List.getElem?_append_left hl] using hw⟩
  case bcastShutdown => exact hp.congr (by simp) (by simp [World.sendBroadcast]) (by simp) (fun x wk m _ h => ⟨wk, m, by simpa using h⟩)
  case shutTx => intro x hx; simp at hx
  case pollWs_active hc => exact hp.congr rfl (Nat.le_refl _) (fun _ h => h) (fun x wk m _ => set_active (fun _ => ⟨_, _, hc⟩) x wk m)
  case pollWs_delivered hc => exact hp.congr rfl (Nat.le_refl _) (fun _ h => h) (fun x wk m _ => set_active (by rintro ⟨_, _, e⟩; simp at e) x wk m)
  case pollWs_closed hc => exact hp.congr rfl (Nat.le_refl _) (fun _ h => h) (fun x wk m _ => set_active (by rintro ⟨_, _, e⟩; simp at e) x wk m)
  case dropWs_active hc => exact hp.congr rfl (Nat.le_refl _) (fun _ h => h) (fun x wk m _ => set_active (by rintro ⟨_, _, e⟩; simp at e) x wk m)
  case dropWs_other hc => exact hp.congr rfl (Nat.le_refl _) (fun _ h => h) (fun x wk m _ => set_active (by rintro ⟨_, _, e⟩; simp at e) x wk m)
  all_goals first
    | exact hp.congr (by simp) (by simp) (by simp) (fun x wk m _ h => ⟨wk, m, by simpa using h⟩)
    | exact hp.congr rfl (Nat.le_refl _) (fun _ h => h) (fun x wk m _ h => ⟨wk, m, h⟩)

/-- As long as no mailbox was dropped: the broadcast length is attained, and broadcasts are parked only while it is at capacity. -/
theorem bp_reachable {cap : Option Nat} {s : Sys} (h : Reachable cap s) :
    (∀ b, b < s.w.bq.length → s.w.alive b = true) → s.w.rcv ≠ 0 → 0 < s.w.bq.length ∧ Tight s.w ∧ BP s.w := by
  induction h with
  | init => intro _ _; exact ⟨by simp [init], .inl rfl, fun x hx => by simp [init] at hx⟩
  | @step s s' a hr hs ih =>
    intro ha h0
    obtain ⟨d1, d2⟩ := step_dead hr hs
    have ha1 : ∀ b, b < s.w.bq.length → s.w.alive b = true := fun b hb => d2 b (ha b (by omega)) hb
    have h1 : s.w.rcv ≠ 0 := fun e => h0 ((C15_zero_forever hr hs).2 e)
    obtain ⟨i0, i1, i2⟩ := ih ha1 h1
    refine ⟨by omega, ?_⟩
    have hkeep : ∀ b, s.w.alive b = true → s'.w.alive b = true := fun b hb => ha b (by have := alive_lt hb; omega)
    cases a with
    | call c =>
      rcases step_rel hs with ⟨c', w', ms, hcc, hc, rfl⟩ | ⟨t, m1, rest, w', ms, hcc, ht, he, rfl⟩
      · refine ⟨i1.congr (fun b h _ => hkeep b h) (callR_bqs hc).2.2 (callR_tail hc), ?_⟩
        obtain ⟨a1, a2, a3, a4, -⟩ := callR_regWs hc
        exact i2.congr (by cases hc <;> simp) (Nat.le_of_eq (callR_tail hc).symm) (by cases hc <;> simp)
          (fun x wk m _ h => ⟨wk, m, by cases hc <;> simpa using h⟩)
      · simp at hcc
    | exec t =>
      rcases step_rel hs with ⟨c', w', ms, hcc, hc, rfl⟩ | ⟨t', m1, rest, w', ms, hcc, ht, he, rfl⟩
      · simp at hcc
      · simp at hcc; subst hcc
        exact ⟨step_tight hr ht hs (fun b h _ _ => hkeep b h) (fun _ => ⟨h1, 0, ha1 0 i0⟩) i1, exec_bp hr ht he i1 i2⟩

/-- **C30 (partial), parked broadcasts.** As long as every mailbox ever created on this address is still alive, a broadcast is parked only
while some live mailbox is full, whatever is going on concurrently: as soon as all of them have space, no broadcast waits any more.
Missing: see `C30_refuted`. -/
theorem C30_parked_partial {cap : Option Nat} {s : Sys} (h : Reachable cap s) (hk : ∀ b, b < s.w.bq.length → s.w.mailboxLive b) {f : Nat}
    {m : Msg} (hp : s.w.parkedSend f .bcast m) : ∃ c, cap = some c ∧ ∃ b, s.w.mailboxLive b ∧ c ≤ (s.w.items b).length := by
  obtain ⟨k, wk, h1, h2⟩ := hp
  have hlen : 0 < s.w.bq.length := by
    obtain ⟨as, hr⟩ := reachable_schedule h
    have := (run_dead as .init hr).1
    simp [init] at this; omega
  obtain ⟨-, ht, hb⟩ := bp_reachable h (fun b hb => mailboxLive_alive h (hk b hb)) (mailboxLive_rcv h (hk 0 hlen))
  have hf := hb _ ((parked_reg h h1 h2).2 rfl) _ _ h2
  unfold World.bcFull at hf
  rw [cap_reachable h] at hf
  cases cap with
  | none => simp at hf
  | some c =>
    simp at hf
    refine ⟨c, rfl, ?_⟩
    rcases ht with h0 | ⟨b, h3, h4⟩
    · exact ⟨0, hk 0 hlen, by omega⟩
    · exact ⟨b, hk b (alive_lt h3), by omega⟩

def exParkedAll : List Act :=
  exLenSched ++ [.call (.broadcast 0), .call (.pollSend 4 7), .exec 4, .exec 4, .exec 4, .exec 4, .exec 4]

/-- Two mailboxes on a bounded(1) address, each with one broadcast; a second broadcast is parked. -/
example : ∃ s, Reachable (some 1) s ∧ (∀ b, b < s.w.bq.length → s.w.mailboxLive b) ∧ s.w.parkedSend 4 .bcast ⟨1, .valued 0⟩ := by
  have key : ∀ s, (init (some 1)).run exParkedAll = some s → s.w.bq.length = 2 ∧ .mailbox 0 ∈ s.w.objs ∧ .mailbox 1 ∈ s.w.objs ∧
      s.w.objs[4]? = some (.send .bcast 1 (.waiting 0)) ∧ s.w.ws[0]? = some (.active (some 7) ⟨1, .valued 0⟩) := by
    intro s h
    have h' : (init (some 1)).run exParkedAll = some _ := rfl
    rw [h'] at h; simp only [Option.some.injEq] at h; subst h
    decide
  cases hs : (init (some 1)).run exParkedAll with
  | none => exact absurd hs (by decide)
  | some s =>
    obtain ⟨h1, h2, h3, h4, h5⟩ := key s hs
    refine ⟨s, Reachable.run .init hs, fun b hb => ?_, ⟨0, some 7, h4, h5⟩⟩
    rw [h1] at hb
    have : b = 0 ∨ b = 1 := by omega
    rcases this with rfl | rfl
    · exact ⟨_, h2, rfl⟩
    · exact ⟨_, h3, rfl⟩

end Xtra
