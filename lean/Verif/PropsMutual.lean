import Verif.PropsNet
/-!
# C55: actors that serve their mailbox while they await — `join` and `select` — do not deadlock each other

The specification is that of `Verif/Net.lean`: `NRun`, `Allowed`, `Net.served`, `Net.uncut`, `NMoves`, `Net.final`, `Net.atRest`.
-/

set_option linter.unusedSimpArgs false

namespace Xtra

/-! ### What is awaited in a future given to `select` -/

/-- Whoever awaits something in the future given to a `select` is inside that `select`, unless it was cut short. -/
def Joined (N : Net) : Prop := ∀ (p k : Nat) (x : Await), x ∈ (N.h p k).wait → x.joined = true →
  ∃ T U, (N.ch p).ts[k]? = some T ∧ U ∈ (N.ch p).ts ∧ ((U.covers T = true ∧ U.lvl = .sel) ∨ U.cutShort T)

theorem covers_given {cap : Option Nat} {c : PCfg} (h : PRun cap true c) {T U : Task} (hT : T ∈ c.ts) (hU : U ∈ c.ts) (hc : U.covers T = true) :
    T.given = some U.i := by
  obtain ⟨k, hk⟩ := List.getElem?_of_mem hT
  obtain ⟨l, hl⟩ := List.getElem?_of_mem hU
  exact (covers_lt h hk hl hc).2.1

/-- What becomes of a `select`. -/
theorem sel_step {s s' : Sys} {U U' : Task} (h : TStep s U s' U') (hs : U.lvl = .sel) :
    U'.i = U.i ∧ (U'.lvl = .last ∨ (U'.lvl = .sel ∧ (U.aborted = true → U'.aborted = true) ∧ (U.ph = .done → U'.ph = .done))) := by
  cases h <;> simp_all <;> grind

theorem last_aborted {cap : Option Nat} {c : PCfg} (h : PRun cap true c) {s' : Sys} {U U' : Task} (hU : U ∈ c.ts) (ht : TStep c.s U s' U')
    (hs : U.lvl = .sel) (hl : U'.lvl = .last) : U.ph ≠ .done ∧ U.aborted = false := by
  obtain ⟨l, hl'⟩ := List.getElem?_of_mem hU
  obtain ⟨ok, -⟩ := (pInv_run h).all l U hl'
  unfold TaskOk at ok
  cases ht <;> simp_all [TaskOkP]

theorem joined_step {ok : Allowed} {caps : Nat → Option Nat} {N N' : Net} (iv : NInv ok caps N) (h : NStep ok N N') (jv : Joined N) : Joined N' := by
  cases h with
  | @other p a s' _ _ _ hs =>
    intro q k x hx hj
    obtain ⟨T, U, h1, h2, h3⟩ := jv q k x hx hj
    by_cases e : q = p
    · subst e; exact ⟨T, U, by simpa using h1, by simpa using h2, h3⟩
    · exact ⟨T, U, by simpa [e] using h1, by simpa [e] using h2, h3⟩
  | @spawn p i b n _ _ =>
    intro q k x hx hj
    rw [setH_at] at hx
    split at hx
    · simp at hx
    · obtain ⟨T, U, h1, h2, h3⟩ := jv q k x hx hj
      by_cases e : q = p
      · subst e
        exact ⟨T, U, by simp [List.getElem?_append_left (List.getElem?_eq_some_iff.mp h1).1, h1], by simp [h2], h3⟩
      · exact ⟨T, U, by simpa [e] using h1, by simpa [e] using h2, h3⟩
  | @task p k T T' s' h' hk hot ht g =>
    intro q j x hx hj
    have hlen := (List.getElem?_eq_some_iff.mp hk).1
    by_cases e : q = p
    · subst e
      simp at hx
      have hx0 := g.wait_mem hx
      obtain ⟨V, U, h1, h2, h3⟩ := jv q j x hx0 hj
      have hjk : j ≠ k := by
        rintro rfl
        rw [hk] at h1; simp at h1; subst h1
        have hTu : T.ph.inUser = true := by
          rcases h3 with ⟨h3, -⟩ | ⟨-, -, h3⟩
          · have := hot U h2; rw [h3] at this; simp at this
          · exact given_inUser h3
        by_cases hT' : T'.ph.inUser = true
        · have := (tstep_user ht hT').1; rw [hTu] at this; simp at this
        · have : h' j = .idle := g.ends j (by rintro ⟨W, hW, hu⟩; simp [hlen] at hW; subst hW; exact hT' hu)
          rw [this] at hx; simp [HSt.idle] at hx
      have h1' : ((N.ch q).ts.set k T')[j]? = some V := by rw [List.getElem?_set_ne (Ne.symm hjk)]; exact h1
      simp only [setHs_ch, setCh_self]
      obtain ⟨l, hl⟩ := List.getElem?_of_mem h2
      by_cases hlk : l = k
      · subst hlk
        rw [hk] at hl; simp at hl; subst hl
        have hmem : T' ∈ (N.ch q).ts.set l T' := List.mem_of_getElem? (i := l) (by simp [hlen])
        have hgv : V.given = some T.i := by
          rcases h3 with ⟨h3, -⟩ | ⟨-, -, h3⟩
          · exact covers_given (iv.run q) (List.mem_of_getElem? h1) h2 h3
          · exact h3
        have hsel : T.lvl = .sel := by rcases h3 with ⟨-, h3⟩ | ⟨h3, -⟩ <;> exact h3
        obtain ⟨hi, hl | ⟨hl, ha, hd⟩⟩ := sel_step ht hsel
        · obtain ⟨hnd, hna⟩ := last_aborted (iv.run q) h2 ht hsel hl
          rcases h3 with ⟨h3, -⟩ | ⟨-, h4, -⟩
          · have := g.futs l T T' j V x hk (by simp [hlen]) hsel hl h1 h3 hx0
            rw [this] at hj; simp at hj
          · rcases h4 with h4 | h4
            · exact absurd h4 hnd
            · rw [hna] at h4; simp at h4
        · refine ⟨V, T', h1', hmem, ?_⟩
          by_cases hd' : T'.ph = .done
          · exact .inr ⟨hl, .inl hd', by rw [hi]; exact hgv⟩
          · rcases h3 with ⟨h3, -⟩ | ⟨-, h4, -⟩
            · left
              refine ⟨?_, hl⟩
              simp only [Task.covers, Bool.and_eq_true, Bool.or_eq_true, bne_iff_ne, beq_iff_eq, ne_eq] at h3 ⊢
              rw [hi, hl]
              exact ⟨⟨by simp, hd'⟩, h3.2⟩
            · exact .inr ⟨hl, h4.imp hd ha, by rw [hi]; exact hgv⟩
      · exact ⟨V, U, h1', List.mem_of_getElem? (i := l) (by rw [List.getElem?_set_ne (Ne.symm hlk)]; exact hl), h3⟩
    · simp [e] at hx
      obtain ⟨V, U, h1, h2, h3⟩ := jv q j x hx hj
      exact ⟨V, U, by simpa [e] using h1, by simpa [e] using h2, h3⟩
  | @nest _ p h =>
    cases h with
    | @nest k i T hk hot hg =>
      intro q j x hx hj
      obtain ⟨V, U, h1, h2, h3⟩ := jv q j x hx hj
      by_cases e : q = p
      · subst e
        exact ⟨V, U, by simp [List.getElem?_append_left (List.getElem?_eq_some_iff.mp h1).1, h1], by simp [h2], h3⟩
      · exact ⟨V, U, by simpa [e] using h1, by simpa [e] using h2, h3⟩
  | @ask _ p h =>
    cases h with
    | @ask k j n want jn l s' hok hmay hh hs =>
      intro q k' x hx hj
      have key : ∀ q, (((N.setCh j { N.ch j with s := s' }).setH p k
          ⟨n, ⟨j, (N.ch j).s.w.objs.length, (N.ch j).s.w.resp.length, want, jn⟩ :: l⟩).ch q).ts = (N.ch q).ts := by
        intro q; by_cases e : q = j
        · subst e; simp
        · simp [e]
      rw [key]
      rw [setH_at] at hx
      split at hx
      · rename_i e
        obtain ⟨rfl, rfl⟩ := e
        rcases List.mem_cons.mp hx with rfl | hx
        · simp at hj; subst hj
          rcases hmay with ⟨T, U, r, h1, h2, h3, h4, -⟩ | ⟨T, h1, -, U, h2, h3⟩
          · exact ⟨T, U, h1, h2, .inl ⟨h3, h4⟩⟩
          · exact ⟨T, U, h1, h2, .inr h3⟩
        · exact jv q k' x (by rw [hh]; exact hx) hj
      · exact jv q k' x hx hj
  | resume h =>
    cases h with
    | @resume k n y l1 l2 hh hmay hs =>
      intro q k' x hx hj
      refine jv q k' x ?_ hj
      rw [setH_at] at hx
      split at hx
      · rename_i e
        obtain ⟨rfl, rfl⟩ := e
        rw [hh]
        simp at hx ⊢
        rcases hx with hx | hx <;> simp [hx]
      · exact hx

theorem joined_run {ok : Allowed} {caps : Nat → Option Nat} {N : Net} (h : NRun ok caps N) : Joined N := by
  induction h with
  | new => intro p k x hx; simp [HSt.idle] at hx
  | step hr hs ih => exact joined_step (nInv_run hr) hs ih

/-! ### C55 -/

/-- **C55.** No deadlock by mutual `join`: let direct awaits go to actors of lower rank, and awaits in the future given to `select` or `join`
to actors of at most the same rank (in particular, any set of actors may `join` on each other's answers, and an actor on its own); let no
capacity be 0, let every channel be served, and let no `select` of running user code have been cut short. Unless the whole network is at rest,
something happens by itself, and no task is dropped for it. -/
theorem C55_progress {ok : Allowed} {Ext : Nat → Nat → Prop} {caps : Nat → Option Nat} {rk : Nat → Nat} {n : Nat} {N : Net}
    (hd : ∀ p j want, ok p j want false → rk j < rk p) (hj : ∀ p j want, ok p j want true → rk j ≤ rk p)
    (hcl : ∀ p j want jn, p < n → ok p j want jn → j < n) (hcap : ∀ p, p < n → caps p ≠ some 0)
    (hr : NRun ok caps N) (hz : N.served ok n) (hcut : N.uncut n) (hn : ¬ N.atRest Ext n) : ∃ N', NAuto ok Ext n N N' ∧ N.NoDrop N' := by
  refine Classical.byContradiction fun hfin => hn (final_rest (rk := rk) (fun p j want jn h => ?_) (fun p k T x hp hk hot hm => ?_) hcl hcap hr hz hfin)
  · cases jn with
    | false => exact Nat.le_of_lt (hd p j want h)
    | true => exact hj p j want h
  · have hok := ((nInv_run hr).wait p k x hm).1
    cases hx : x.joined with
    | false => rw [hx] at hok; exact hd _ _ _ hok
    | true =>
      obtain ⟨V, U, h1, h2, h3⟩ := joined_run hr p k x hm hx
      rw [hk] at h1; simp at h1; subst h1
      rcases h3 with ⟨h3, -⟩ | h3
      · have := hot U h2; rw [h3] at this; simp at this
      · exact absurd h3 (hcut p hp T (List.mem_of_getElem? hk) U h2)

/-- **C55.** Nobody hangs, although actors await each other's answers, as long as they serve their mailboxes meanwhile: as `C54_nobody_hangs`,
with the ranks of `C55_progress`. -/
theorem C55_nobody_hangs {ok : Allowed} {Ext : Nat → Nat → Prop} {caps : Nat → Option Nat} {rk : Nat → Nat} {n : Nat} {N N' : Net}
    (hd : ∀ p j want, ok p j want false → rk j < rk p) (hj : ∀ p j want, ok p j want true → rk j ≤ rk p)
    (hcl : ∀ p j want jn, p < n → ok p j want jn → j < n) (hcap : ∀ p, p < n → caps p ≠ some 0)
    (hr : NRun ok caps N) (hs : NMoves ok Ext n N N') (hfin : N'.final ok Ext n) (hz : N'.served ok n) (hcut : N'.uncut n) :
    N'.atRest Ext n ∧
    (∀ q k x, q < n → x ∈ (N.h q k).wait → (N'.ch x.p).s.w.met x.f x.i x.want) ∧
    (∀ p f i, p < n → Ext p f → (N.ch p).s.unresolved f i false → (N'.ch p).s.w.resolved f i false) ∧
    (∀ p f i, p < n → Ext p f → (N.ch p).s.unresolved f i true → (N'.ch p).servedAll → (N'.ch p).s.w.resolved f i true) := by
  have hrest : N'.atRest Ext n := Classical.byContradiction fun hn => hfin (C55_progress hd hj hcl hcap (hs.run hr) hz hcut hn)
  exact ⟨hrest, rest_met hcap hr hs hz hrest⟩

/-- **C55.** And every awaited request is answered, or it is known why not: as `C54_answered`, with the ranks of `C55_progress`. -/
theorem C55_answered {ok : Allowed} {Ext : Nat → Nat → Prop} {caps : Nat → Option Nat} {rk : Nat → Nat} {n : Nat} {N N' : Net}
    (hd : ∀ p j want, ok p j want false → rk j < rk p) (hj : ∀ p j want, ok p j want true → rk j ≤ rk p)
    (hcl : ∀ p j want jn, p < n → ok p j want jn → j < n) (hcap : ∀ p, p < n → caps p ≠ some 0)
    (hr : NRun ok caps N) (hs : NMoves ok Ext n N N') (hfin : N'.final ok Ext n) (hz : N'.served ok n) (hcut : N'.uncut n) {p f i : Nat} (hp : p < n)
    (hrun : ∃ T ∈ (N'.ch p).ts, T.ph ≠ .done)
    (hf : (Ext p f ∧ (N.ch p).s.unresolved f i false) ∨ ∃ q k jn, q < n ∧ ⟨p, f, i, .answer, jn⟩ ∈ (N.h q k).wait) :
    (∃ v, .replyOk f i v ∈ (N'.ch p).s.w.log ∧ .handled i v ∈ (N'.ch p).s.w.log) ∨
    (.replyInt f i ∈ (N'.ch p).s.w.log ∧ ((∃ T ∈ (N'.ch p).ts, DroppedTask (N'.ch p).s.w i T) ∨
      (.lost i ∈ (N'.ch p).s.w.log ∧ ∃ T ∈ (N'.ch p).ts, CancelledTask (N'.ch p).s.w T))) := by
  obtain ⟨h1, h2, h3, -⟩ := C55_nobody_hangs hd hj hcl hcap hr hs hfin hz hcut
  refine rest_ok ((nInv_run (hs.run hr)).run p) (hcap p hp) ((h1 p hp).1.1.settled ((nInv_run (hs.run hr)).run p)) hrun ?_
  rcases hf with ⟨he, hu⟩ | ⟨q, k, jn, hq, hm⟩
  · exact h3 p f i hp he hu
  · exact h2 q k _ hq hm

end Xtra
