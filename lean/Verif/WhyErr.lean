import Verif.Why
/-! # C10: a message whose send resolved to `Disconnected` was destroyed, in all interleavings -/

set_option linter.unusedSimpArgs false

namespace Xtra

/-- The cell of a parked send that was failed: its message is destroyed. -/
structure ClosedDropped (s : Sys) : Prop where
  obj : ∀ {f mid k : Nat} {md : Mode} {x : Option Nat}, s.w.objs[f]? = some (.send md mid (.waiting k)) →
    s.w.ws[k]? = some (.closed x) → Ev.dropped mid ∈ s.w.log
  th : ∀ {ms : List Micro} {f mid k wk : Nat} {md : Mode} {x : Option Nat}, ms ∈ s.th → Micro.pollWs f md mid k wk ∈ ms →
    s.w.ws[k]? = some (.closed x) → Ev.dropped mid ∈ s.w.log

theorem closedDropped_reachable {cap : Option Nat} {s : Sys} (h : Reachable cap s) : ClosedDropped s := by
  refine Reachable.inv (P := ClosedDropped) ?_ ?_ ?_ h
  · exact ⟨fun _ h => by simp [init] at h, fun h => by simp [init] at h⟩
  · intro s c w' ms hr ih hc
    have hsub := (callR_suffix hc).subset
    refine ⟨fun {f mid k md x} h1 h2 => ?_, fun {ms' f mid k wk md x} h1 h2 h3 => ?_⟩
    · obtain ⟨md0, h3, -⟩ := callR_waiting hc h1
      simp only [callR_wsEq hc] at h2
      exact hsub (ih.obj h3 h2)
    · simp only [callR_wsEq hc] at h3
      simp at h1
      rcases h1 with h1 | rfl
      · exact hsub (ih.th h1 h2 h3)
      · exact hsub (ih.obj (callR_pollWs hc h2).1 h3)
  · intro s t mc rest w' ms hr ih ht he
    have hown := own_reachable hr
    have hreg := regWs_reachable hr
    have hid := wsId_reachable hr
    have hsub := (execR_suffix he hreg).subset
    have hmem : mc :: rest ∈ s.th := List.mem_of_getElem? ht
    have back : ∀ {k : Nat} {x : Option Nat}, w'.ws[k]? = some (.closed x) →
        (∃ y, s.w.ws[k]? = some (.closed y)) ∨ ∃ a m, s.w.ws[k]? = some (.active a m) ∧ Ev.dropped m.id ∈ w'.log := by
      intro k x hx
      cases h0 : s.w.ws[k]? with
      | none =>
        obtain ⟨_, _, _, _, _, _, h1, -⟩ := execR_newWs he hreg hx h0
        simp at h1
      | some y =>
        rcases execR_evo he hreg h0 with h1 | ⟨_, _, _, _, _, _, -, -, h1⟩ | ⟨_, _, -, h1, -⟩ | ⟨a, m, h1, -, -, h2⟩ | ⟨h1, -⟩
        · rw [hx] at h1; simp at h1; subst h1; exact .inl ⟨_, rfl⟩
        · rw [hx] at h1; simp at h1
        · rw [hx] at h1; simp at h1
        · subst h1; exact .inr ⟨a, m, rfl, h2⟩
        · rw [hx] at h1; simp at h1
    have objC : ∀ {f mid k : Nat} {md : Mode} {x : Option Nat}, s.w.objs[f]? = some (.send md mid (.waiting k)) →
        w'.ws[k]? = some (.closed x) → Ev.dropped mid ∈ w'.log := by
      intro f mid k md x h1 h2
      rcases back h2 with ⟨y, h3⟩ | ⟨a, m, h3, h4⟩
      · exact hsub (ih.obj h1 h3)
      · rw [← hid.obj h1 h3]; exact h4
    have thC : ∀ {ms : List Micro} {f mid k wk : Nat} {md : Mode} {x : Option Nat}, ms ∈ s.th →
        Micro.pollWs f md mid k wk ∈ ms → w'.ws[k]? = some (.closed x) → Ev.dropped mid ∈ w'.log := by
      intro ms f mid k wk md x h1 h2 h5
      rcases back h5 with ⟨y, h3⟩ | ⟨a, m, h3, h4⟩
      · exact hsub (ih.th h1 h2 h3)
      · rw [← hid.th h1 h2 h3]; exact h4
    refine ⟨fun {f mid k md x} h1 h2 => ?_, fun {ms' f mid k wk md x} h1 h2 h3 => ?_⟩
    · rcases execR_objEvo he h1 with h3 | ⟨-, h3 | ⟨md', mid', h', wk', m', wk'', rfl, h4, -⟩ | ⟨_, _, _, h4, -⟩ | ⟨_, _, _, _, h4, -⟩ |
        ⟨_, _, _, _, _, h4, -⟩ | ⟨_, _, h4, -⟩⟩
      · exact objC h3 h2
      · simp [Obj.inert] at h3
      · simp at h4; obtain ⟨rfl, rfl, rfl⟩ := h4
        exact thC hmem (List.mem_cons_self ..) h2
      all_goals simp at h4
    · rcases mem_set_cases h1 with h1 | rfl
      · exact thC h1 h2 h3
      · rw [List.mem_append] at h2
        rcases h2 with h2 | h2
        · exfalso
          have : ∃ f md m rc wk, mc = .sendCrit f md m rc wk := by
            cases he <;> simp at h2 <;> exact ⟨_, _, _, _, _, rfl⟩
          obtain ⟨f1, md1, m1, rc1, wk1, rfl⟩ := this
          have hlt : k < s.w.ws.length := by
            rcases back h3 with ⟨y, h4⟩ | ⟨a, m, h4, -⟩ <;> exact (List.getElem?_eq_some_iff.mp h4).1
          cases he <;> simp at h2 <;> omega
        · exact thC hmem (List.mem_cons_of_mem _ h2) h3

/-- **C10.** `Disconnected` means that the message was not sent and never will be: in every reachable state of every interleaving, the
message of a send or broadcast that resolved to `Disconnected`, whether at its first poll or after having been parked, was destroyed; it
is in no queue, nobody has received or handled it, it was not accepted as a broadcast, and as the history only grows none of this will
ever happen. -/
theorem C10_err_never_handled {cap : Option Nat} {s : Sys} (h : Reachable cap s) {f i : Nat} (he : Ev.sendErr f i ∈ s.w.log) :
    Ev.dropped i ∈ s.w.log ∧ (∀ m ∈ s.w.uq, m.id ≠ i) ∧ s.w.log.countP (Ev.yieldsUni i) = 0 ∧ s.w.log.countP (Ev.completes i) = 0 ∧
    s.w.log.countP (Ev.acceptsBc i) = 0 := by
  have hd : Ev.dropped i ∈ s.w.log := by
    induction h with
    | init => simp [init] at he
    | @step s s' a hr hs ih =>
      have old : Ev.sendErr f i ∈ s.w.log → Ev.dropped i ∈ s'.w.log := fun h => (step_suffix hr hs).subset (ih h)
      rcases step_rel hs with ⟨c, w', ms, rfl, hc, rfl⟩ | ⟨t, m1, rest, w', ms, rfl, ht, hx, rfl⟩
      · rcases callR_traced hc he rfl with h | ⟨_, _, _, _, -, -, -, h⟩
        · exact old h
        · simp at h
      · rcases execR_traced hx (regWs_reachable hr) he rfl with h | h
        · exact old h
        · cases h with
          | ld1e h0 => cases hx <;> first | (simp; done) | omega
          | ld2e h0 => cases hx <;> first | (simp; done) | omega
          | closed h0 =>
            exact (execR_suffix hx (regWs_reachable hr)).subset ((closedDropped_reachable hr).th (List.mem_of_getElem? ht) (List.mem_cons_self ..) h0)
  exact ⟨hd, C10_never_handled h hd⟩

/-- A send parked on a full queue; the last mailbox is dropped; it resolves to `Disconnected`. -/
def parkedErrSched : List Act :=
  [.call (.send 0), .call (.pollSend 2 1), .exec 1, .exec 1, .exec 1, .exec 1, .exec 1,
   .call (.send 0), .call (.pollSend 3 1), .exec 3, .exec 3, .exec 3, .exec 3, .exec 3,
   .call (.dropMailbox 1), .exec 4, .exec 4, .exec 4, .call (.pollSend 3 1), .exec 5]

example : ∃ s, Reachable (some 1) s ∧ Ev.sendErr 3 1 ∈ s.w.log :=
  ⟨_, Reachable.run .init (as := parkedErrSched) rfl, by decide⟩

end Xtra
