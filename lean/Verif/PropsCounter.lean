import Verif.Counter
/-! # C75: the reference counters do not overflow -/

set_option linter.unusedSimpArgs false

namespace Xtra

/-! ## Specification -/

/-- The thread drops a pointer of kind `k`, which is not counted yet. -/
def CPc.drops (k : PKind) : CPc → Bool
  | .dec k' => k' == k
  | _ => false

/-- The thread is in the midst of an operation. -/
def CPc.busy : CPc → Bool
  | .idle => false
  | _ => true

/-- The pointers of kind `k` that exist: those somebody owns or has leaked, and those whose drop has not been counted yet. -/
def CSt.existing (s : CSt) (k : PKind) : Nat := s.live k + s.th.countP (CPc.drops k)

/-- Everybody who may use the channel: pointers of all kinds, and operations going on. -/
def CSt.holders (s : CSt) : Nat := s.nS + s.nW + s.nR + s.th.countP CPc.busy

/-! ## Proofs -/

theorem countP_set {l : List CPc} {t : Nat} {x y : CPc} {f : CPc → Bool} (h : l[t]? = some x) :
    (l.set t y).countP f + (if f x then 1 else 0) = l.countP f + (if f y then 1 else 0) := by
  induction l generalizing t with
  | nil => simp at h
  | cons a l ih =>
    cases t with
    | zero => simp at h; subst h; simp [List.countP_cons]; omega
    | succ t => simp at h; simp [List.countP_cons]; have := ih h; omega

theorem countP_ge {l : List CPc} {t : Nat} {x : CPc} {f : CPc → Bool} (h : l[t]? = some x) (hx : f x = true) : 1 ≤ l.countP f :=
  List.countP_pos_iff.mpr ⟨x, List.mem_of_getElem? h, hx⟩

/-- The check of `Arc::clone` will abort the process. -/
def CPc.doomed (M : Nat) : CPc → Bool
  | .check _ _ _ old => decide (M < old)
  | _ => false

/-- A strong address is being made from another. -/
def CPc.makes : CPc → Bool
  | .check _ .strong false _ => true
  | .count _ .strong => true
  | _ => false

structure CInv (M n : Nat) (s : CSt) : Prop where
  len : s.th.length = n
  arc : s.arc = s.holders
  snd : s.snd = s.existing .strong
  rcv : s.rcv = s.existing .rx
  bound : s.holders ≤ M + 1 + s.th.countP (CPc.doomed M)
  /-- a strong address is made from a strong address -/
  src : ∀ p ∈ s.th, p.makes = true → p.borrows = some .strong ∧ 0 < s.nS
  /-- who has seen 0 has seen the truth -/
  zero : ∀ j, .upCas j 0 ∈ s.th → s.existing .strong = 0

theorem wadd_of {N n : Nat} (h : n + 1 < N) : wadd N n = n + 1 := Nat.mod_eq_of_lt h

theorem wsub_of {N n : Nat} (h : 0 < n) (h2 : n < N) : wsub N n = n - 1 := by
  unfold wsub
  rw [show n + (N - 1) = (n - 1) + N by omega, Nat.add_mod_right]
  exact Nat.mod_eq_of_lt (by omega)

theorem CInv.lt {M n : Nat} {s : CSt} (h : CInv M n s) (hn : n ≤ M) : s.holders < 2 * M + 2 := by
  have := h.bound
  have h2 : s.th.countP (CPc.doomed M) ≤ s.th.length := List.countP_le_length
  have := h.len
  omega

theorem existing_le (s : CSt) : s.existing .strong + s.existing .rx + s.nW ≤ s.holders := by
  unfold CSt.existing CSt.holders CSt.live
  have : ∀ l : List CPc, l.countP (CPc.drops .strong) + l.countP (CPc.drops .rx) ≤ l.countP CPc.busy := by
    intro l
    induction l with
    | nil => simp
    | cons a l ih => simp only [List.countP_cons]; cases a <;> simp [CPc.drops, CPc.busy] <;> (try (rename_i k; cases k <;> simp)) <;> omega
  have := this s.th
  simp only; omega

theorem set_mem {l : List CPc} {t : Nat} {x y : CPc} (h : x ∈ l.set t y) : x = y ∨ x ∈ l := by
  rcases List.mem_or_eq_of_mem_set h with h | h
  · exact .inr h
  · exact .inl h

/-- The counts of a list of threads after one of them moved. -/
theorem counts_set {M : Nat} {l : List CPc} {t : Nat} {x y : CPc} (h : l[t]? = some x) :
    (l.set t y).countP (CPc.doomed M) + (if CPc.doomed M x then 1 else 0) = l.countP (CPc.doomed M) + (if CPc.doomed M y then 1 else 0) ∧
    (l.set t y).countP (CPc.drops .strong) + (if CPc.drops .strong x then 1 else 0) =
      l.countP (CPc.drops .strong) + (if CPc.drops .strong y then 1 else 0) ∧
    (l.set t y).countP (CPc.drops .rx) + (if CPc.drops .rx x then 1 else 0) =
      l.countP (CPc.drops .rx) + (if CPc.drops .rx y then 1 else 0) ∧
    (l.set t y).countP CPc.busy + (if CPc.busy x then 1 else 0) = l.countP CPc.busy + (if CPc.busy y then 1 else 0) :=
  ⟨countP_set h, countP_set h, countP_set h, countP_set h⟩

theorem doomed_lt {M : Nat} {l : List CPc} {t : Nat} {x : CPc} (h : l[t]? = some x) (hx : CPc.doomed M x = false) :
    l.countP (CPc.doomed M) + 1 ≤ l.length := by
  have h1 := countP_set (y := .check .weak .weak false (M + 1)) (f := CPc.doomed M) h
  have h2 : (l.set t (.check .weak .weak false (M + 1))).countP (CPc.doomed M) ≤ (l.set t (.check .weak .weak false (M + 1))).length :=
    List.countP_le_length
  have h3 : CPc.doomed M (.check .weak .weak false (M + 1)) = true := by simp [CPc.doomed]
  simp only [h3, hx, List.length_set] at h1 h2
  simp at h1
  omega

theorem CInv.step {M n : Nat} {s s' : CSt} {e : CEv} (h : CInv M n s) (hn : n ≤ M) (hs : CStep true M s e s') : CInv M n s' := by
  have hlt := h.lt hn
  have hle := existing_le s
  obtain ⟨hlen, harc, hsnd, hrcv, hb, hsrc, hz⟩ := h
  simp only [CSt.existing, CSt.holders, CSt.live] at harc hsnd hrcv hb hz hlt hle
  cases hs with
  | @clone t k j ht hk hl =>
    have hd := doomed_lt (M := M) ht rfl
    obtain ⟨a1, a2, a3, a4⟩ := counts_set (M := M) (y := .check j k false s.arc) ht
    have hw : wadd (2 * M + 2) s.arc = s.arc + 1 := wadd_of (by omega)
    refine ⟨by simp [CSt.goto, hlen], ?_, ?_, ?_, ?_, ?_, ?_⟩ <;> simp only [CSt.goto, CSt.existing, CSt.holders, CSt.live, hw] <;> simp [CPc.doomed, CPc.drops, CPc.busy] at a1 a2 a3 a4
    · omega
    · omega
    · omega
    · split at a1 <;> omega
    · intro p hp hm
      rcases set_mem hp with rfl | hp
      · cases k <;> simp [CPc.makes] at hm
        rcases hk with hk | hk
        · subst hk; exact ⟨rfl, hl⟩
        · simp at hk
      · exact hsrc p hp hm
    · intro j' hp
      rcases set_mem hp with hp | hp
      · simp at hp
      · have := hz j' hp; omega
  | @upgrade t j ht hl =>
    have hd := doomed_lt (M := M) ht rfl
    obtain ⟨a1, a2, a3, a4⟩ := counts_set (M := M) (y := .check j .strong true s.arc) ht
    have hw : wadd (2 * M + 2) s.arc = s.arc + 1 := wadd_of (by omega)
    refine ⟨by simp [CSt.goto, hlen], ?_, ?_, ?_, ?_, ?_, ?_⟩ <;> simp only [CSt.goto, CSt.existing, CSt.holders, CSt.live, hw] <;> simp [CPc.doomed, CPc.drops, CPc.busy] at a1 a2 a3 a4
    · omega
    · omega
    · omega
    · split at a1 <;> omega
    · intro p hp hm
      rcases set_mem hp with rfl | hp
      · simp [CPc.makes] at hm
      · exact hsrc p hp hm
    · intro j' hp
      rcases set_mem hp with hp | hp
      · simp at hp
      · have := hz j' hp; omega
  | @checked t j k old ht hg =>
    have hg := hg rfl
    obtain ⟨a1, a2, a3, a4⟩ := counts_set (M := M) (y := .count j k) ht
    refine ⟨by simp [CSt.goto, hlen], ?_, ?_, ?_, ?_, ?_, ?_⟩ <;> simp only [CSt.goto, CSt.existing, CSt.holders, CSt.live] <;>
      simp [CPc.doomed, CPc.drops, CPc.busy, show ¬ M < old by omega] at a1 a2 a3 a4
    · omega
    · omega
    · omega
    · omega
    · intro p hp hm
      rcases set_mem hp with rfl | hp
      · have := hsrc _ (List.mem_of_getElem? ht)
        cases k <;> simp [CPc.makes, CPc.borrows] at this hm ⊢
        exact this
      · exact hsrc p hp hm
    · intro j' hp
      rcases set_mem hp with hp | hp
      · simp at hp
      · have := hz j' hp; omega
  | @checkedUp t j k old ht hg =>
    have hg := hg rfl
    obtain ⟨a1, a2, a3, a4⟩ := counts_set (M := M) (y := .upLoad j) ht
    refine ⟨by simp [CSt.goto, hlen], ?_, ?_, ?_, ?_, ?_, ?_⟩ <;> simp only [CSt.goto, CSt.existing, CSt.holders, CSt.live] <;>
      simp [CPc.doomed, CPc.drops, CPc.busy, show ¬ M < old by omega] at a1 a2 a3 a4
    · omega
    · omega
    · omega
    · omega
    · intro p hp hm
      rcases set_mem hp with rfl | hp
      · simp [CPc.makes] at hm
      · exact hsrc p hp hm
    · intro j' hp
      rcases set_mem hp with hp | hp
      · simp at hp
      · have := hz j' hp; omega
  | @count t j k ht =>
    obtain ⟨a1, a2, a3, a4⟩ := counts_set (M := M) (y := .idle) ht
    have hsr := hsrc _ (List.mem_of_getElem? ht)
    have a5 := countP_ge (f := CPc.busy) ht rfl
    simp [CPc.doomed, CPc.drops, CPc.busy] at a1 a2 a3 a4
    have hle2 := existing_le (s.goto t .idle)
    simp only [CSt.goto, CSt.existing, CSt.holders, CSt.live] at hle2
    have w1 : wadd (2 * M + 2) s.snd = s.snd + 1 := wadd_of (by omega)
    have w2 : wadd (2 * M + 2) s.rcv = s.rcv + 1 := wadd_of (by omega)
    cases k <;> refine ⟨by simp [CSt.goto, CSt.addPtr, CSt.inc, hlen], ?_, ?_, ?_, ?_, ?_, ?_⟩ <;>
      simp only [CSt.goto, CSt.existing, CSt.holders, CSt.live, CSt.addPtr, CSt.inc, w1, w2] <;> (try omega)
    all_goals first
      | (intro p hp hm
         rcases set_mem hp with rfl | hp
         · simp [CPc.makes] at hm
         · have := hsrc p hp hm; exact ⟨this.1, by omega⟩)
      | (intro j' hp
         rcases set_mem hp with hp | hp
         · simp at hp
         · have := hz j' hp
           simp [CPc.makes] at hsr
           omega)
  | @load t j ht =>
    obtain ⟨a1, a2, a3, a4⟩ := counts_set (M := M) (y := .upCas j s.snd) ht
    refine ⟨by simp [CSt.goto, hlen], ?_, ?_, ?_, ?_, ?_, ?_⟩ <;> simp only [CSt.goto, CSt.existing, CSt.holders, CSt.live] <;>
      simp [CPc.doomed, CPc.drops, CPc.busy] at a1 a2 a3 a4
    · omega
    · omega
    · omega
    · omega
    · intro p hp hm
      rcases set_mem hp with rfl | hp
      · simp [CPc.makes] at hm
      · exact hsrc p hp hm
    · intro j' hp
      rcases set_mem hp with hp | hp
      · simp at hp; omega
      · have := hz j' hp; omega
  | @refuse t j ht =>
    obtain ⟨a1, a2, a3, a4⟩ := counts_set (M := M) (y := .arcDec) ht
    refine ⟨by simp [CSt.goto, hlen], ?_, ?_, ?_, ?_, ?_, ?_⟩ <;> simp only [CSt.goto, CSt.existing, CSt.holders, CSt.live] <;>
      simp [CPc.doomed, CPc.drops, CPc.busy] at a1 a2 a3 a4
    · omega
    · omega
    · omega
    · omega
    · intro p hp hm
      rcases set_mem hp with rfl | hp
      · simp [CPc.makes] at hm
      · exact hsrc p hp hm
    · intro j' hp
      rcases set_mem hp with hp | hp
      · simp at hp
      · have := hz j' hp; omega
  | @cas t j m ht h0 hm =>
    obtain ⟨a1, a2, a3, a4⟩ := counts_set (M := M) (y := .idle) ht
    have a5 := countP_ge (f := CPc.busy) ht rfl
    simp [CPc.doomed, CPc.drops, CPc.busy] at a1 a2 a3 a4
    have hle2 := existing_le (s.goto t .idle)
    simp only [CSt.goto, CSt.existing, CSt.holders, CSt.live] at hle2
    have w1 : wadd (2 * M + 2) m = m + 1 := wadd_of (by omega)
    refine ⟨by simp [CSt.goto, CSt.addPtr, hlen], ?_, ?_, ?_, ?_, ?_, ?_⟩ <;> simp only [CSt.goto, CSt.existing, CSt.holders, CSt.live, CSt.addPtr, w1] <;>
      (try omega)
    · intro p hp hm
      rcases set_mem hp with rfl | hp
      · simp [CPc.makes] at hm
      · have := hsrc p hp hm; exact ⟨this.1, by omega⟩
    · intro j' hp
      rcases set_mem hp with hp | hp
      · simp at hp
      · have := hz j' hp; omega
  | @casFails t j m ht h0 =>
    obtain ⟨a1, a2, a3, a4⟩ := counts_set (M := M) (y := .upCas j s.snd) ht
    refine ⟨by simp [CSt.goto, hlen], ?_, ?_, ?_, ?_, ?_, ?_⟩ <;> simp only [CSt.goto, CSt.existing, CSt.holders, CSt.live] <;>
      simp [CPc.doomed, CPc.drops, CPc.busy] at a1 a2 a3 a4
    · omega
    · omega
    · omega
    · omega
    · intro p hp hm
      rcases set_mem hp with rfl | hp
      · simp [CPc.makes] at hm
      · exact hsrc p hp hm
    · intro j' hp
      rcases set_mem hp with hp | hp
      · simp at hp; omega
      · have := hz j' hp; omega
  | @drop t k ht hl hfree =>
    obtain ⟨a1, a2, a3, a4⟩ := counts_set (M := M) (y := .dec k) ht
    cases k <;> refine ⟨by simp [CSt.goto, CSt.delPtr, hlen], ?_, ?_, ?_, ?_, ?_, ?_⟩ <;>
      simp only [CSt.goto, CSt.existing, CSt.holders, CSt.live, CSt.delPtr] at * <;> simp [CPc.doomed, CPc.drops, CPc.busy] at a1 a2 a3 a4 <;> (try omega)
    all_goals first
      | (intro p hp hm
         rcases set_mem hp with rfl | hp
         · simp [CPc.makes] at hm
         · have := hsrc p hp hm
           refine ⟨this.1, ?_⟩
           first
             | exact this.2
             | (rcases hfree with hf | hf
                · omega
                · exact absurd this.1 (hf p hp)))
      | (intro j' hp
         rcases set_mem hp with hp | hp
         · simp at hp
         · have := hz j' hp
           omega)
  | @destroyLast t k ht hw =>
    obtain ⟨a1, a2, a3, a4⟩ := counts_set (M := M) (y := .arcDec) ht
    have a5 := countP_ge (f := CPc.drops k) ht (by simp [CPc.drops])
    have w1 : 0 < s.snd → wsub (2 * M + 2) s.snd = s.snd - 1 := fun h => wsub_of h (by omega)
    have w2 : 0 < s.rcv → wsub (2 * M + 2) s.rcv = s.rcv - 1 := fun h => wsub_of h (by omega)
    cases k <;> refine ⟨by simp [CSt.goto, CSt.decr, hlen], ?_, ?_, ?_, ?_, ?_, ?_⟩ <;>
      simp only [CSt.goto, CSt.existing, CSt.holders, CSt.live, CSt.decr] at * <;> simp [CPc.doomed, CPc.drops, CPc.busy] at a1 a2 a3 a4 <;> (try omega)
    all_goals first
      | (have w1 := w1 (by omega); omega)
      | (have w2 := w2 (by omega); omega)
      | (intro p hp hm
         rcases set_mem hp with rfl | hp
         · simp [CPc.makes] at hm
         · exact hsrc p hp hm)
      | (intro j' hp
         rcases set_mem hp with hp | hp
         · simp at hp
         · have := hz j' hp
           omega)
  | @destroy t k ht hw =>
    obtain ⟨a1, a2, a3, a4⟩ := counts_set (M := M) (y := .arcDec) ht
    have a5 := countP_ge (f := CPc.drops k) ht (by simp [CPc.drops])
    have w1 : 0 < s.snd → wsub (2 * M + 2) s.snd = s.snd - 1 := fun h => wsub_of h (by omega)
    have w2 : 0 < s.rcv → wsub (2 * M + 2) s.rcv = s.rcv - 1 := fun h => wsub_of h (by omega)
    cases k <;> refine ⟨by simp [CSt.goto, CSt.decr, hlen], ?_, ?_, ?_, ?_, ?_, ?_⟩ <;>
      simp only [CSt.goto, CSt.existing, CSt.holders, CSt.live, CSt.decr] at * <;> simp [CPc.doomed, CPc.drops, CPc.busy] at a1 a2 a3 a4 <;> (try omega)
    all_goals first
      | (have w1 := w1 (by omega); omega)
      | (have w2 := w2 (by omega); omega)
      | (intro p hp hm
         rcases set_mem hp with rfl | hp
         · simp [CPc.makes] at hm
         · exact hsrc p hp hm)
      | (intro j' hp
         rcases set_mem hp with hp | hp
         · simp at hp
         · have := hz j' hp
           omega)
  | @arcLast t ht hw =>
    obtain ⟨a1, a2, a3, a4⟩ := counts_set (M := M) (y := .idle) ht
    have a5 := countP_ge (f := CPc.busy) ht rfl
    have w1 : wsub (2 * M + 2) s.arc = s.arc - 1 := wsub_of (by omega) (by omega)
    refine ⟨by simp [CSt.goto, hlen], ?_, ?_, ?_, ?_, ?_, ?_⟩ <;> simp only [CSt.goto, CSt.existing, CSt.holders, CSt.live, w1] <;>
      simp [CPc.doomed, CPc.drops, CPc.busy] at a1 a2 a3 a4 <;> (try omega)
    · intro p hp hm
      rcases set_mem hp with rfl | hp
      · simp [CPc.makes] at hm
      · exact hsrc p hp hm
    · intro j' hp
      rcases set_mem hp with hp | hp
      · simp at hp
      · have := hz j' hp; omega
  | @arcDrop t ht hw =>
    obtain ⟨a1, a2, a3, a4⟩ := counts_set (M := M) (y := .idle) ht
    have a5 := countP_ge (f := CPc.busy) ht rfl
    have w1 : wsub (2 * M + 2) s.arc = s.arc - 1 := wsub_of (by omega) (by omega)
    refine ⟨by simp [CSt.goto, hlen], ?_, ?_, ?_, ?_, ?_, ?_⟩ <;> simp only [CSt.goto, CSt.existing, CSt.holders, CSt.live, w1] <;>
      simp [CPc.doomed, CPc.drops, CPc.busy] at a1 a2 a3 a4 <;> (try omega)
    · intro p hp hm
      rcases set_mem hp with rfl | hp
      · simp [CPc.makes] at hm
      · exact hsrc p hp hm
    · intro j' hp
      rcases set_mem hp with hp | hp
      · simp at hp
      · have := hz j' hp; omega

theorem cInv_run {M n : Nat} {s : CSt} (h1 : 1 ≤ M) (hn : n ≤ M) (h : CRun true M n s) : CInv M n s := by
  induction h with
  | start =>
    have a1 : (List.replicate n CPc.idle).countP (CPc.doomed M) = 0 := by simp [List.countP_replicate, CPc.doomed]
    have a2 : ∀ k, (List.replicate n CPc.idle).countP (CPc.drops k) = 0 := by simp [List.countP_replicate, CPc.drops]
    have a3 : (List.replicate n CPc.idle).countP CPc.busy = 0 := by simp [List.countP_replicate, CPc.busy]
    refine ⟨by simp [CSt.start], ?_, ?_, ?_, ?_, ?_, ?_⟩ <;> simp only [CSt.start, CSt.existing, CSt.holders, CSt.live, a1, a2, a3]
    · omega
    · intro p hp hm
      rw [List.eq_of_mem_replicate hp] at hm; simp [CPc.makes] at hm
    · intro j hp
      have := List.eq_of_mem_replicate hp; simp at this
  | step _ hs ih => exact ih.step hn hs

/-- Once no strong address exists, none ever will. -/
theorem strong_gone_forever {M n : Nat} {s s' : CSt} {e : CEv} (h : CInv M n s) (hn : n ≤ M) (hs : CStep true M s e s') (h0 : s.existing .strong = 0) :
    s'.existing .strong = 0 := by
  have i' := h.step hn hs
  rw [← i'.snd]
  have hsnd := h.snd
  have hS : s.nS = 0 := by simp only [CSt.existing, CSt.live] at h0; omega
  have hD : s.th.countP (CPc.drops .strong) = 0 := by simp only [CSt.existing, CSt.live] at h0; omega
  rw [h0] at hsnd
  cases hs with
  | @count t j k ht =>
    have hsr := h.src _ (List.mem_of_getElem? ht)
    cases k with
    | strong => have := (hsr rfl).2; omega
    | weak => exact hsnd
    | rx => exact hsnd
  | @cas t j m ht h1 hm => omega
  | @drop t k ht hl hf => cases k <;> exact hsnd
  | @destroyLast t k ht hw =>
    have a5 := countP_ge (f := CPc.drops k) ht (by simp [CPc.drops])
    cases k <;> first | exact hsnd | omega
  | @destroy t k ht hw =>
    have a5 := countP_ge (f := CPc.drops k) ht (by simp [CPc.drops])
    cases k <;> first | exact hsnd | omega
  | _ => exact hsnd

/-! ## Theorems -/

/-- **C75.** The three words are exact in every state of every execution, as long as there are at most `isize::MAX` threads: they never wrap, whatever is
cloned, upgraded, dropped or leaked. (So the natural numbers of the other models are what the program computes.) -/
theorem C75_counters_exact {M n : Nat} {s : CSt} (h1 : 1 ≤ M) (hn : n ≤ M) (h : CRun true M n s) :
    s.snd = s.existing .strong ∧ s.rcv = s.existing .rx ∧ s.arc = s.holders ∧ s.holders < 2 * M + 2 := by
  have i := cInv_run h1 hn h
  exact ⟨i.snd, i.rcv, i.arc, i.lt hn⟩

/-- **C75.** The drop that finds that it is the last of its kind, and shuts the channel down, is the last one: exactly that step after which no pointer
of that kind exists any more. -/
theorem C75_last_is_last {M n : Nat} {s s' : CSt} {e : CEv} (h1 : 1 ≤ M) (hn : n ≤ M) (h : CRun true M n s) (hs : CStep true M s e s')
    {k : PKind} (hk : k ≠ .weak) : e = .last k ↔ s.existing k ≠ 0 ∧ s'.existing k = 0 := by
  have i := cInv_run h1 hn h
  have i' := i.step hn hs
  have e1 : ∀ {u : CSt}, CInv M n u → u.existing k = (u.word k).getD 0 := by
    intro u iu
    cases k with
    | strong => simp [CSt.word, iu.snd]
    | weak => exact absurd rfl hk
    | rx => simp [CSt.word, iu.rcv]
  rw [e1 i, e1 i']
  have hlt := i.lt hn
  have hle := existing_le s
  have hb1 : s.snd < 2 * M + 2 := by rw [i.snd]; omega
  have hb2 : s.rcv < 2 * M + 2 := by rw [i.rcv]; omega
  have w1 : 0 < s.snd → wsub (2 * M + 2) s.snd = s.snd - 1 := fun h => wsub_of h hb1
  have w2 : 0 < s.rcv → wsub (2 * M + 2) s.rcv = s.rcv - 1 := fun h => wsub_of h hb2
  cases hs with
  | @count t j k' ht =>
    have hle2 := existing_le (((s.inc (2 * M + 2) k').addPtr k').goto t .idle)
    have hlt2 := i'.lt hn
    have hs2 := i'.snd
    have hr2 := i'.rcv
    have a := counts_set (M := M) (y := .idle) ht
    have hs := i.snd
    have hr := i.rcv
    simp [CPc.drops] at a
    cases k' <;> cases k <;> simp [CSt.word, CSt.inc, CSt.addPtr, CSt.goto, CSt.existing, CSt.live] at * <;> omega
  | @cas t j m ht h0 hm =>
    have hs2 := i'.snd
    cases k <;> simp [CSt.word, CSt.addPtr, CSt.goto, CSt.existing, CSt.live] at * <;> omega
  | @destroyLast t k' ht hw =>
    cases k' <;> cases k <;> simp [CSt.word, CSt.decr, CSt.goto] at * <;> (first | (rw [w1 (by omega)]; omega) | (rw [w2 (by omega)]; omega) | omega)
  | @destroy t k' ht hw =>
    have a5 := countP_ge (f := CPc.drops k') ht (by simp [CPc.drops])
    have hs := i.snd
    have hr := i.rcv
    cases k' <;> cases k <;> simp [CSt.word, CSt.decr, CSt.goto, CSt.existing, CSt.live] at * <;>
      (first | (rw [w1 (by omega)]; omega) | (rw [w2 (by omega)]; omega) | omega)
  | @drop t k' ht hl hf => cases k' <;> cases k <;> simp [CSt.word, CSt.delPtr, CSt.goto] at *
  | _ => cases k <;> simp [CSt.word, CSt.goto] at *

/-- **C75.** An upgrade is granted only while a strong address exists, and refused only when none does; then none ever will again. -/
theorem C75_upgrade {M n : Nat} {s s' : CSt} (h1 : 1 ≤ M) (hn : n ≤ M) (h : CRun true M n s) :
    (CStep true M s (.upgraded true) s' → s.existing .strong ≠ 0) ∧
    (CStep true M s (.upgraded false) s' → s.existing .strong = 0) ∧
    (∀ e, CStep true M s e s' → s.existing .strong = 0 → s'.existing .strong = 0) := by
  have i := cInv_run h1 hn h
  refine ⟨fun hs => ?_, fun hs => ?_, fun e hs h0 => strong_gone_forever i hn hs h0⟩
  · cases hs with
    | cas ht h0 hm => rw [← i.snd]; omega
  · cases hs with
    | refuse ht => exact i.zero _ (List.mem_of_getElem? ht)

/-- **C75.** The channel is freed when its last user is gone, and only then: by the step after which no pointer of any kind exists and nobody is in the
midst of making or dropping one. -/
theorem C75_freed {M n : Nat} {s s' : CSt} {e : CEv} (h1 : 1 ≤ M) (hn : n ≤ M) (h : CRun true M n s) (hs : CStep true M s e s') :
    e = .freed ↔ s.holders ≠ 0 ∧ s'.holders = 0 := by
  have i := cInv_run h1 hn h
  have i' := i.step hn hs
  rw [← i.arc, ← i'.arc]
  have hb : s.arc < 2 * M + 2 := by rw [i.arc]; exact i.lt hn
  have w1 : 0 < s.arc → wsub (2 * M + 2) s.arc = s.arc - 1 := fun h => wsub_of h hb
  have ha := i'.arc
  cases hs with
  | @clone t k j ht hk hl =>
    have a5 := countP_ge (f := CPc.busy) (l := s.th.set t (.check j k false s.arc)) (t := t) (x := .check j k false s.arc)
      (by simp [(List.getElem?_eq_some_iff.mp ht).1]) rfl
    simp [CSt.goto, CSt.holders] at ha ⊢; omega
  | @upgrade t j ht hl =>
    have a5 := countP_ge (f := CPc.busy) (l := s.th.set t (.check j .strong true s.arc)) (t := t) (x := .check j .strong true s.arc)
      (by simp [(List.getElem?_eq_some_iff.mp ht).1]) rfl
    simp [CSt.goto, CSt.holders] at ha ⊢; omega
  | arcLast ht hw => simp [CSt.goto]; rw [w1 (by omega)]; omega
  | @arcDrop t ht hw =>
    have a5 := countP_ge (f := CPc.busy) ht rfl
    have hx := i.arc
    simp [CSt.goto, CSt.holders] at hx ⊢
    rw [w1 (by omega)]; omega
  | @count t j k ht => cases k <;> simp [CSt.goto, CSt.inc, CSt.addPtr]
  | @drop t k ht hl hf => cases k <;> simp [CSt.goto, CSt.delPtr]
  | @destroyLast t k ht hw => cases k <;> simp [CSt.goto, CSt.decr]
  | @destroy t k ht hw => cases k <;> simp [CSt.goto, CSt.decr]
  | _ => simp [CSt.goto, CSt.addPtr]

theorem leak_run {M : Nat} (m : Nat) : CRun false M 1 ⟨(2 + m) % (2 * M + 2), (1 + m) % (2 * M + 2), 1, 1 + m, 0, 1, [.idle]⟩ ∨ M = 0 := by
  by_cases hM : M = 0
  · exact .inr hM
  · left
    induction m with
    | zero =>
      have h1 : (2 + 0) % (2 * M + 2) = 2 := Nat.mod_eq_of_lt (by omega)
      have h2 : (1 + 0) % (2 * M + 2) = 1 := Nat.mod_eq_of_lt (by omega)
      rw [h1, h2]
      exact .start
    | succ m ih =>
      have s1 := CRun.step ih (.clone (t := 0) (k := .strong) (j := .strong) rfl (.inl rfl) (by simp only [CSt.live]; omega))
      have s2 := CRun.step s1 (.checked (t := 0) (j := .strong) (k := .strong) rfl (by simp))
      have s3 := CRun.step s2 (.count (t := 0) (j := .strong) (k := .strong) rfl)
      simp [CSt.goto, CSt.inc, CSt.addPtr, wadd] at s3
      rw [show 2 + (m + 1) = 2 + m + 1 by omega, show 1 + (m + 1) = 1 + m + 1 by omega]
      exact s3

/-- **C75.** The guard of `Arc` is what protects the counters, which have none of their own: without it one thread that clones and leaks `2 * M + 1`
addresses makes the counter zero, and an upgrade is refused although `2 * M + 2` strong addresses exist. -/
theorem C75_guard_is_needed {M : Nat} (hM : 1 ≤ M) :
    ∃ s s', CRun false M 1 s ∧ CStep false M s (.upgraded false) s' ∧ s.existing .strong = 2 * M + 2 ∧ s.snd = 0 := by
  rcases leak_run (M := M) (2 * M + 1) with h | h
  · have s1 := CRun.step h (.upgrade (t := 0) (j := .strong) rfl (by simp only [CSt.live]; omega))
    have s2 := CRun.step s1 (.checkedUp (t := 0) (j := .strong) (k := .strong) rfl (by simp))
    have s3 := CRun.step s2 (.load (t := 0) (j := .strong) rfl)
    have e0 : (1 + (2 * M + 1)) % (2 * M + 2) = 0 := by rw [show 1 + (2 * M + 1) = 2 * M + 2 by omega, Nat.mod_self]
    refine ⟨_, _, s3, .refuse (t := 0) (j := .strong) (by simp [CSt.goto, e0]), ?_, ?_⟩
    · simp [CSt.goto, CSt.existing, CSt.live, CPc.drops]; omega
    · simp [CSt.goto, e0]
  · omega

/-! ## Examples -/

/-- `isize::MAX` on a 64-bit machine. -/
def isizeMax : Nat := 2 ^ 63 - 1

/-- Two threads: the first drops the last strong address, which it finds out; the second has begun to upgrade before, and is refused. -/
example : ∃ s s' s2 s3, CRun true isizeMax 2 s ∧ CStep true isizeMax s (.last .strong) s' ∧ CStep true isizeMax s' .none s2 ∧
    CStep true isizeMax s2 (.upgraded false) s3 ∧ s3.holders = 3 ∧ s3.arc = 3 := by
  have s0 : CRun true isizeMax 2 (CSt.start 2) := .start
  have s1 := CRun.step s0 (.upgrade (t := 1) (j := .rx) rfl (by decide))
  have s2 := CRun.step s1 (.checkedUp (t := 1) (j := .rx) (k := .strong) rfl (by intro _; decide))
  have s3 := CRun.step s2 (.drop (t := 0) (k := .strong) rfl (by decide) (.inr (by decide)))
  exact ⟨_, _, _, _, s3, .destroyLast (t := 0) (k := .strong) rfl rfl, .load (t := 1) (j := .rx) rfl, .refuse (t := 1) (j := .rx) rfl, rfl, by decide⟩

/-- One thread drops the address and the mailbox: the channel is freed. -/
example : ∃ s s', CRun true isizeMax 1 s ∧ CStep true isizeMax s .freed s' ∧ s'.holders = 0 := by
  have s0 : CRun true isizeMax 1 (CSt.start 1) := .start
  have s1 := CRun.step s0 (.drop (t := 0) (k := .strong) rfl (by decide) (.inr (by decide)))
  have s2 := CRun.step s1 (.destroyLast (t := 0) (k := .strong) rfl rfl)
  have s3 := CRun.step s2 (.arcDrop (t := 0) rfl (by decide))
  have s4 := CRun.step s3 (.drop (t := 0) (k := .rx) rfl (by decide) (.inr (by decide)))
  have s5 := CRun.step s4 (.destroyLast (t := 0) (k := .rx) rfl rfl)
  exact ⟨_, _, s5, .arcLast (t := 0) rfl (by decide), rfl⟩

/-- A weak address is made, and upgraded while the strong one exists. -/
example : ∃ s s', CRun true isizeMax 1 s ∧ CStep true isizeMax s (.upgraded true) s' ∧ s'.existing .strong = 2 ∧ s'.nW = 1 := by
  have s0 : CRun true isizeMax 1 (CSt.start 1) := .start
  have s1 := CRun.step s0 (.clone (t := 0) (k := .weak) (j := .strong) rfl (.inr rfl) (by decide))
  have s2 := CRun.step s1 (.checked (t := 0) (j := .strong) (k := .weak) rfl (by intro _; decide))
  have s3 := CRun.step s2 (.count (t := 0) (j := .strong) (k := .weak) rfl)
  have s4 := CRun.step s3 (.upgrade (t := 0) (j := .weak) rfl (by decide))
  have s5 := CRun.step s4 (.checkedUp (t := 0) (j := .weak) (k := .strong) rfl (by intro _; decide))
  have s6 := CRun.step s5 (.load (t := 0) (j := .weak) rfl)
  exact ⟨_, _, s6, .cas (t := 0) (j := .weak) (n := 1) rfl (by decide) rfl, by decide, rfl⟩

end Xtra
