import Verif.Own
/-! Case lemmas for the critical sections. -/

namespace Xtra

theorem Msg.total : Heap.TotalPre Msg.le where
  total a b := Prio.ble_total a.prio b.prio
  trans a b c := fun h1 h2 => Prio.ble_trans (a := a.prio) (b := b.prio) (c := c.prio) h1 h2

theorem peek_eq_none {l : List Msg} : Heap.peek l = none ↔ l = [] := by
  cases l <;> simp [Heap.peek]

theorem pop_of_peek {l : List Msg} {m : Msg} (h : Heap.peek l = some m) :
    ∃ q, Heap.pop Msg.le l = some (m, q) := by
  have := Heap.pop_peek (le := Msg.le) (l := l)
  cases hp : Heap.pop Msg.le l with
  | none => rw [hp, h] at this; simp at this
  | some r => rw [hp, h] at this; simp at this; exact ⟨r.2, by rw [← this]⟩

/-! ### fulfil -/

/-- No cell in the list waits for a notification. -/
def noneEmpty (cells : List RxCell) (q : List Nat) : Prop :=
  ∀ c ∈ q, ∀ wk, cells[c]? ≠ some (.empty wk)

theorem fulfil_cases (cells : List RxCell) (q : List Nat) (m : Msg) :
    (fulfil cells q m = (cells, [], false) ∧ noneEmpty cells q) ∨
    (∃ pre c rest wk, q = pre ++ c :: rest ∧ noneEmpty cells pre ∧ cells[c]? = some (.empty wk) ∧
      fulfil cells q m = (cells.set c (.full (.newMessage m) wk), rest, true)) := by
  induction q with
  | nil => left; exact ⟨rfl, by simp [noneEmpty]⟩
  | cons c cs ih =>
    unfold fulfil
    split
    · rename_i wk h
      right; exact ⟨[], c, cs, wk, rfl, by simp [noneEmpty], h, rfl⟩
    · rename_i hne
      have hc : ∀ wk, cells[c]? ≠ some (.empty wk) := fun wk hh => hne wk hh
      rcases ih with ⟨h1, h2⟩ | ⟨pre, c', rest, wk, h1, h2, h3, h4⟩
      · left; refine ⟨h1, ?_⟩
        intro x hx wk
        rcases List.mem_cons.mp hx with rfl | hx
        · exact hc wk
        · exact h2 x hx wk
      · right; refine ⟨c :: pre, c', rest, wk, by simp [h1], ?_, h3, h4⟩
        intro x hx wk
        rcases List.mem_cons.mp hx with rfl | hx
        · exact hc wk
        · exact h2 x hx wk

/-! ### takeWaiting -/

/-- Registered handles point to parked or dropped senders. -/
def regOk (ws : List WsCell) (q : List Nat) : Prop :=
  ∀ h ∈ q, (∃ wk m, ws[h]? = some (.active wk m)) ∨ ws[h]? = some .gone

theorem optLt_irrefl (a : Option Prio) : optLt a a = false := by
  cases a <;> simp [optLt, Prio.blt]

theorem optLt_trans' {a b c : Option Prio} (h1 : optLt a b = false) (h2 : optLt b c = false) :
    optLt a c = false := by
  cases a <;> cases b <;> cases c <;> simp_all [optLt]
  rename_i x y z
  cases x <;> cases y <;> cases z <;> simp_all [Prio.blt, Prio.ble]; omega

theorem optLt_asymm {a b : Option Prio} (h : optLt a b = true) : optLt b a = false := by
  cases a <;> cases b <;> simp_all [optLt, Prio.blt]

theorem lastMax_none {ks : List (Option Prio)} : lastMax ks = none ↔ ks = [] := by
  cases ks with
  | nil => simp [lastMax]
  | cons k ks =>
    simp only [lastMax, reduceCtorEq, iff_false]
    split
    · simp
    · split <;> simp

/-- `lastMax` returns a position holding the key, no key is larger, and later keys are smaller. -/
theorem lastMax_spec {ks : List (Option Prio)} {p : Nat} {k : Option Prio}
    (h : lastMax ks = some (p, k)) :
    ks[p]? = some k ∧ (∀ k' ∈ ks, optLt k k' = false) ∧
      (∀ j k', p < j → ks[j]? = some k' → optLt k' k = true) := by
  induction ks generalizing p k with
  | nil => simp [lastMax] at h
  | cons a ks ih =>
    simp only [lastMax] at h
    split at h
    · rename_i hn
      rw [lastMax_none] at hn; subst hn
      simp at h; obtain ⟨rfl, rfl⟩ := h
      refine ⟨by simp, by simp [optLt_irrefl], ?_⟩
      intro j k' hj hk; 
      cases j with
      | zero => omega
      | succ j => simp at hk
    · rename_i p' k1 hs
      obtain ⟨h1, h2, h3⟩ := ih hs
      split at h
      · rename_i hlt
        simp at h; obtain ⟨rfl, rfl⟩ := h
        refine ⟨by simp, ?_, ?_⟩
        · intro k' hk'
          rcases List.mem_cons.mp hk' with rfl | hk'
          · exact optLt_irrefl _
          · exact optLt_trans' (optLt_asymm hlt) (h2 k' hk')
        · intro j k' hj hk
          cases j with
          | zero => omega
          | succ j =>
            simp at hk
            have := h2 k' (List.mem_of_getElem? hk)
            cases hx : optLt k' a with
            | true => rfl
            | false => 
              have := optLt_trans' this hx
              rw [hlt] at this; simp at this
      · rename_i hlt
        simp at h; obtain ⟨rfl, rfl⟩ := h
        refine ⟨by simp [h1], ?_, ?_⟩
        · intro k' hk'
          rcases List.mem_cons.mp hk' with rfl | hk'
          · simpa using hlt
          · exact h2 k' hk'
        · intro j k' hj hk
          cases j with
          | zero => omega
          | succ j => simp at hk; exact h3 j k' (by omega) hk

/-- The parked sender `h` with message `m` is the one taken out of queue `q`, leaving `q'`. -/
structure Takes (ws : List WsCell) (q : List Nat) (h : Nat) (wk : Option Nat) (m : Msg)
    (q' : List Nat) : Prop where
  cell : ws[h]? = some (.active wk m)
  pos : ∃ p, (q.filter (wsActive ws))[p]? = some h ∧ q' = (q.filter (wsActive ws)).eraseIdx p
  max : ∀ h' ∈ q, ∀ wk' m', ws[h']? = some (.active wk' m') → m'.prio.ble m.prio = true

theorem takeWaiting_cases {ws : List WsCell} {q : List Nat} (n : Nat) (hreg : regOk ws q) :
    (takeWaiting (n + 1) ws q = (ws, [], none) ∧ ∀ h ∈ q, ws[h]? = some .gone) ∨
    (∃ h wk m q', Takes ws q h wk m q' ∧
      takeWaiting (n + 1) ws q = (ws.set h (.delivered wk), q', some m)) := by
  unfold takeWaiting
  simp only []
  split
  · rename_i hn
    rw [lastMax_none, List.map_eq_nil_iff] at hn
    left
    refine ⟨by rw [hn], ?_⟩
    intro h hh
    rcases hreg h hh with ⟨wk, m, hc⟩ | hc
    · have : h ∈ q.filter (wsActive ws) := by simp [hh, wsActive, hc]
      rw [hn] at this; simp at this
    · exact hc
  · rename_i p k hs
    obtain ⟨h1, h2, -⟩ := lastMax_spec hs
    rw [List.getElem?_map] at h1
    split
    · rename_i hq; rw [hq] at h1; simp at h1
    · rename_i h hq
      rw [hq] at h1
      simp at h1
      obtain ⟨hact, hmem⟩ := mem_of_getElem?_filter hq
      right
      rcases hreg h hmem with ⟨wk, m, hc⟩ | hc
      · refine ⟨h, wk, m, _, ⟨hc, ⟨p, hq, rfl⟩, ?_⟩, ?_⟩
        · intro h' hh' wk' m' hc'
          have hk : k = some m.prio := by rw [← h1]; simp [wsPrio, hc]
          have hm : some m'.prio ∈ (q.filter (wsActive ws)).map (wsPrio ws) := by
            rw [List.mem_map]
            exact ⟨h', by simp [hh', wsActive, hc'], by simp [wsPrio, hc']⟩
          have := h2 _ hm
          rw [hk] at this
          simp only [optLt] at this
          cases hb : m'.prio.ble m.prio with
          | true => rfl
          | false =>
            have hb' := Prio.not_ble hb
            simp [Prio.blt, hb, hb'] at this
        · rw [hc]
      · simp [wsActive, hc] at hact

theorem Takes.mem {ws : List WsCell} {q q' : List Nat} {h : Nat} {wk : Option Nat} {m : Msg}
    (t : Takes ws q h wk m q') : h ∈ q := by
  obtain ⟨p, hp, -⟩ := t.pos
  exact (mem_of_getElem?_filter hp).2

theorem Takes.sublist {ws : List WsCell} {q q' : List Nat} {h : Nat} {wk : Option Nat} {m : Msg}
    (t : Takes ws q h wk m q') : q'.Sublist q := by
  obtain ⟨p, -, rfl⟩ := t.pos
  exact (List.eraseIdx_sublist _ _).trans List.filter_sublist

theorem perm_eraseIdx {α : Type} {l : List α} {p : Nat} (hp : p < l.length) :
    l.Perm (l[p] :: l.eraseIdx p) := by
  induction l generalizing p with
  | nil => simp at hp
  | cons a l ih =>
    cases p with
    | zero => simp
    | succ p =>
      simp only [List.length_cons, Nat.add_lt_add_iff_right] at hp
      have := ih hp
      simp only [List.getElem_cons_succ, List.eraseIdx_cons_succ]
      exact (this.cons a).trans (.swap _ _ _)

theorem Takes.perm {ws : List WsCell} {q q' : List Nat} {h : Nat} {wk : Option Nat} {m : Msg}
    (t : Takes ws q h wk m q') : (q.filter (wsActive ws)).Perm (h :: q') := by
  obtain ⟨p, hp, rfl⟩ := t.pos
  obtain ⟨hl, he⟩ := List.getElem?_eq_some_iff.mp hp
  subst he
  exact perm_eraseIdx hl

theorem Takes.not_mem {ws : List WsCell} {q q' : List Nat} {h : Nat} {wk : Option Nat} {m : Msg}
    (t : Takes ws q h wk m q') (hn : q.Nodup) : h ∉ q' := by
  have h1 : (q.filter (wsActive ws)).Nodup := hn.filter _
  have := (t.perm.nodup_iff).mp h1
  simp at this
  exact this.1

theorem Takes.mem_rest {ws : List WsCell} {q q' : List Nat} {h : Nat} {wk : Option Nat} {m : Msg}
    (t : Takes ws q h wk m q') {h' : Nat} (hm : h' ∈ q) (ha : wsActive ws h' = true) (hne : h' ≠ h) :
    h' ∈ q' := by
  have : h' ∈ q.filter (wsActive ws) := by simp [hm, ha]
  have := (t.perm.mem_iff).mp this
  simp [hne] at this
  exact this

/-! ### pops -/

theorem popUnicast_cases {w : World} (hreg : regOk w.ws w.wOne) {m : Msg} {w' : World}
    (h : w.popUnicast = some (m, w')) :
    ∃ q, Heap.pop Msg.le w.uq = some (m, q) ∧
     ((({ w with uq := q } : World).uniFull = true ∧ w' = { w with uq := q }) ∨
      (({ w with uq := q } : World).uniFull = false ∧ (∀ h ∈ w.wOne, w.ws[h]? = some .gone) ∧
        w' = { w with uq := q, wOne := [] }) ∨
      (({ w with uq := q } : World).uniFull = false ∧
        ∃ h wk m' q', Takes w.ws w.wOne h wk m' q' ∧
          w' = { w with uq := Heap.push Msg.le q m', ws := w.ws.set h (.delivered wk), wOne := q' })) := by
  unfold World.popUnicast at h
  split at h
  · simp at h
  · rename_i m0 q hp
    simp only [] at h
    split at h
    · rename_i hf
      simp at h; obtain ⟨rfl, rfl⟩ := h
      exact ⟨q, hp, .inl ⟨hf, rfl⟩⟩
    · rename_i hf
      have hf' : ({ w with uq := q } : World).uniFull = false := by simpa using hf
      rcases takeWaiting_cases w.wOne.length hreg with ⟨ht, hg⟩ | ⟨h0, wk, m', q', ht, he⟩
      · rw [ht] at h
        simp at h; obtain ⟨rfl, rfl⟩ := h
        exact ⟨q, hp, .inr (.inl ⟨hf', hg, rfl⟩)⟩
      · rw [he] at h
        simp at h; obtain ⟨rfl, rfl⟩ := h
        exact ⟨q, hp, .inr (.inr ⟨hf', h0, wk, m', q', ht, rfl⟩)⟩

/-- Queue `b` replaced by `items`, tail recomputed. -/
def World.afterPop (w : World) (b : Nat) (items : List Msg) : World :=
  match w.bq[b]? with
  | some q =>
    { w with bq := w.bq.set b { q with items := items },
             tail := ({ w with bq := w.bq.set b { q with items := items } } : World).longest }
  | none => w

theorem popBroadcast_cases {w : World} (hreg : regOk w.ws w.wAll) {b : Nat} {m : Msg} {w' : World}
    (h : w.popBroadcast b = some (m, w')) :
    ∃ q, Heap.pop Msg.le (w.items b) = some (m, q) ∧
     (((w.afterPop b q).bcFull = true ∧ w' = w.afterPop b q) ∨
      ((w.afterPop b q).bcFull = false ∧ (∀ h ∈ w.wAll, w.ws[h]? = some .gone) ∧
        w' = { w.afterPop b q with wAll := [] }) ∨
      ((w.afterPop b q).bcFull = false ∧
        ∃ h wk m' q', Takes w.ws w.wAll h wk m' q' ∧
          w' = ({ w.afterPop b q with ws := w.ws.set h (.delivered wk), wAll := q' } : World).sendBroadcast m')) := by
  unfold World.popBroadcast at h
  split at h
  · simp at h
  · rename_i q0 hq0
    split at h
    · simp at h
    · rename_i m0 q hp
      have hit : w.items b = q0.items := by simp [World.items, hq0]
      have hap : w.afterPop b q = 
        { w with bq := w.bq.set b { q0 with items := q },
                 tail := ({ w with bq := w.bq.set b { q0 with items := q } } : World).longest } := by
        simp [World.afterPop, hq0]
      rw [hit]
      simp only [] at h
      split at h
      · rename_i hf
        simp at h; obtain ⟨rfl, rfl⟩ := h
        exact ⟨q, hp, .inl ⟨by rw [hap]; exact hf, by rw [hap]⟩⟩
      · rename_i hf
        have hf' : (w.afterPop b q).bcFull = false := by rw [hap]; simpa using hf
        rcases takeWaiting_cases w.wAll.length hreg with ⟨ht, hg⟩ | ⟨h0, wk, m', q', ht, he⟩
        · rw [ht] at h
          simp at h; obtain ⟨rfl, rfl⟩ := h
          exact ⟨q, hp, .inr (.inl ⟨hf', hg, by rw [hap]⟩)⟩
        · rw [he] at h
          simp at h; obtain ⟨rfl, rfl⟩ := h
          exact ⟨q, hp, .inr (.inr ⟨hf', h0, wk, m', q', ht, by rw [hap]⟩)⟩

theorem popBroadcast_isSome {w : World} {b : Nat} (h : w.items b ≠ []) :
    ∃ r, w.popBroadcast b = some r := by
  unfold World.popBroadcast
  unfold World.items at h
  split
  · rename_i hn; simp [hn] at h
  · rename_i q hq
    simp [hq] at h
    split
    · rename_i hp; exact absurd (Heap.pop_none.mp hp) h
    · simp only []
      split
      · exact ⟨_, rfl⟩
      · split <;> exact ⟨_, rfl⟩

theorem popBroadcast_none {w : World} {b : Nat} (h : w.popBroadcast b = none) : w.items b = [] := by
  cases hi : w.items b with
  | nil => rfl
  | cons a l =>
    obtain ⟨r, hr⟩ := popBroadcast_isSome (w := w) (b := b) (by simp [hi])
    rw [h] at hr; simp at hr

theorem popUnicast_isSome {w : World} (h : w.uq ≠ []) : ∃ r, w.popUnicast = some r := by
  unfold World.popUnicast
  split
  · rename_i hp; exact absurd (Heap.pop_none.mp hp) h
  · simp only []
    split
    · exact ⟨_, rfl⟩
    · split <;> exact ⟨_, rfl⟩

theorem pop_peek_some {l : List Msg} {m : Msg} {q : List Msg} (h : Heap.pop Msg.le l = some (m, q)) :
    Heap.peek l = some m := by
  rw [← Heap.pop_peek (le := Msg.le), h]; rfl

/-! ### tryRecv -/

/-- The four outcomes of `try_recv`; no panic branch. -/
theorem tryRecv_cases (w : World) (b : Nat) :
    (∃ m w', w.popBroadcast b = some (m, w') ∧ w.tryRecv b = (w', .ready (.all m)) ∧
      (w.items b).head? = some m ∧ ∀ u ∈ w.uq.head?, u.prio.blt m.prio = true) ∨
    (∃ m w', w.popUnicast = some (m, w') ∧ w.tryRecv b = (w', .ready (.one m)) ∧
      w.uq.head? = some m ∧ ∀ u ∈ (w.items b).head?, u.prio.ble m.prio = true) ∨
    (w.uq = [] ∧ w.items b = [] ∧ w.sc = 0 ∧ w.tryRecv b = (w, .ready .shutdown)) ∨
    (w.uq = [] ∧ w.items b = [] ∧ (w.sc ≠ 0 ∨ w.lag = .late) ∧
      w.tryRecv b = ({ w with cells := w.cells ++ [.empty none], wRx := w.wRx ++ [w.cells.length] },
        .wait w.cells.length)) := by
  unfold World.tryRecv
  simp only [Heap.peek]
  cases hi : (w.items b).head? with
  | none =>
    have hi' : w.items b = [] := by simpa using hi
    cases hu : w.uq.head? with
    | none =>
      have hu' : w.uq = [] := by simpa using hu
      right; right
      by_cases hs : w.sc = 0
      · by_cases hl : w.lag = .late
        · right; simp [Prio.cmpOpt, hl, hu', hi']
        · left; simp [Prio.cmpOpt, hs, hl, hu', hi']
      · right; simp [Prio.cmpOpt, hs, hu', hi']
    | some u =>
      right; left
      obtain ⟨⟨m, w'⟩, hr⟩ := popUnicast_isSome (w := w) (by intro h; simp [h] at hu)
      refine ⟨m, w', hr, ?_, ?_, by simp⟩
      · simp [Prio.cmpOpt, hr]
      · unfold World.popUnicast at hr
        split at hr
        · simp at hr
        · rename_i m0 q hp
          have hpk := pop_peek_some hp
          simp only [Heap.peek, hu] at hpk
          rw [hpk]
          simp only [] at hr
          split at hr
          · simp at hr; simp [hr.1]
          · split at hr <;> (simp at hr; simp [hr.1])
  | some x =>
    have hb : ∃ r, w.popBroadcast b = some r :=
      popBroadcast_isSome (by intro h; simp [h] at hi)
    obtain ⟨⟨mb, wb⟩, hb⟩ := hb
    have hbm : x = mb := by
      unfold World.popBroadcast at hb
      split at hb
      · simp at hb
      · rename_i q0 hq0
        have hit : w.items b = q0.items := by simp [World.items, hq0]
        split at hb
        · simp at hb
        · rename_i m0 q hp
          have hpk := pop_peek_some hp
          simp only [Heap.peek, ← hit, hi] at hpk
          simp at hpk
          simp only [] at hb
          split at hb
          · simp at hb; simp [hb.1, hpk]
          · split at hb <;> (simp at hb; simp [hb.1, hpk])
    subst hbm
    cases hu : w.uq.head? with
    | none =>
      left
      exact ⟨x, wb, hb, by simp [Prio.cmpOpt, hb], rfl, by simp⟩
    | some u =>
      by_cases hlt : u.prio.blt x.prio = true
      · left
        exact ⟨x, wb, hb, by simp [Prio.cmpOpt, hb, hlt], rfl, by simpa using hlt⟩
      · right; left
        have hle : x.prio.ble u.prio = true := by
          simp [Prio.blt] at hlt
          rcases Prio.ble_total u.prio x.prio with h | h
          · exact hlt h
          · exact h
        obtain ⟨⟨m, w'⟩, hr⟩ := popUnicast_isSome (w := w) (by intro h; simp [h] at hu)
        have hum : u = m := by
          have hr' := hr
          unfold World.popUnicast at hr'
          split at hr'
          · simp at hr'
          · rename_i m0 q hp
            have hpk := pop_peek_some hp
            simp only [Heap.peek, hu] at hpk
            simp at hpk
            simp only [] at hr'
            split at hr'
            · simp at hr'; simp [hr'.1, hpk]
            · split at hr' <;> (simp at hr'; simp [hr'.1, hpk])
        subst hum
        refine ⟨u, w', hr, ?_, rfl, by simpa using hle⟩
        have hlt' : u.prio.blt x.prio = false := by simpa using hlt
        by_cases h2 : x.prio.blt u.prio = true
        · simp [Prio.cmpOpt, hlt', h2, hr]
        · have h2' : x.prio.blt u.prio = false := by simpa using h2
          simp [Prio.cmpOpt, hlt', h2', hr]

/-! ### sends -/

theorem sendOne_cases (w : World) (m : Msg) :
    (∃ pre c rest wk, w.wRx = pre ++ c :: rest ∧ noneEmpty w.cells pre ∧
      w.cells[c]? = some (.empty wk) ∧
      w.sendOne m = ({ w with cells := w.cells.set c (.full (.newMessage m) wk), wRx := rest }, .sent)) ∨
    (noneEmpty w.cells w.wRx ∧ w.uniFull = true ∧
      w.sendOne m = ({ w with wRx := [], ws := w.ws ++ [.active none m], wOne := w.wOne ++ [w.ws.length] },
        .parked w.ws.length)) ∨
    (noneEmpty w.cells w.wRx ∧ w.uniFull = false ∧
      w.sendOne m = ({ w with wRx := [], uq := Heap.push Msg.le w.uq m }, .sent)) := by
  unfold World.sendOne
  rcases fulfil_cases w.cells w.wRx m with ⟨h1, h2⟩ | ⟨pre, c, rest, wk, h1, h2, h3, h4⟩
  · right
    rw [h1]
    simp only []
    have : ({ w with wRx := [] } : World).uniFull = w.uniFull := rfl
    rw [this]
    by_cases hf : w.uniFull = true
    · left; simp [hf, h2]
    · right; simp [hf, h2]
  · left; exact ⟨pre, c, rest, wk, h1, h2, h3, by rw [h4]⟩

theorem sendAll_cases (w : World) (m : Msg) :
    (w.bcFull = true ∧
      w.sendAll m = ({ w with ws := w.ws ++ [.active none m], wAll := w.wAll ++ [w.ws.length] },
        .parked w.ws.length)) ∨
    (w.bcFull = false ∧ w.sendAll m = (w.sendBroadcast m, .sent)) := by
  unfold World.sendAll
  by_cases hf : w.bcFull = true
  · left; simp [hf]
  · right; simp [hf]

theorem requeue_cases (w : World) (m : Msg) :
    (∃ pre c rest wk, w.wRx = pre ++ c :: rest ∧ noneEmpty w.cells pre ∧
      w.cells[c]? = some (.empty wk) ∧
      w.requeue m = { w with cells := w.cells.set c (.full (.newMessage m) wk), wRx := rest,
                             log := .requeued m.id :: w.log }) ∨
    (noneEmpty w.cells w.wRx ∧
      w.requeue m = { w with wRx := [], uq := Heap.push Msg.le w.uq m,
                             log := .requeued m.id :: w.log }) := by
  unfold World.requeue
  rcases fulfil_cases w.cells w.wRx m with ⟨h1, h2⟩ | ⟨pre, c, rest, wk, h1, h2, h3, h4⟩
  · right; rw [h1]; exact ⟨h2, rfl⟩
  · left; exact ⟨pre, c, rest, wk, h1, h2, h3, by rw [h4]⟩

end Xtra
