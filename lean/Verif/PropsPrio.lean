import Verif.ObjEvo
/-!
# C19: the priority is frozen by the first poll
-/

set_option linter.unusedSimpArgs false

namespace Xtra

theorem execR_objs_length {w w' : World} {mc : Micro} {ms : List Micro} (h : ExecR w mc w' ms) : w.objs.length ≤ w'.objs.length := by
  cases h <;> (try simp) <;> (try (rename_i hp _ _; simp [World.popBroadcast_objs hp]; done)) <;>
    (try (rename_i hp _ _; simp [World.popUnicast_objs hp]; done)) <;> (try (rename_i hp; simp [World.popBroadcast_objs hp]; done))
/-- Object `f` exists and is not a send future that was never polled. -/
def World.notNew (w : World) (f : Nat) : Prop :=
  f < w.objs.length ∧ ∀ md mid m rc, w.objs[f]? ≠ some (.send md mid (.new m rc))

theorem callR_notNew {w w' : World} {c : Call} {ms : List Micro} (h : CallR w c w' ms) {f : Nat} (hn : w.notNew f) : w'.notNew f := by
  obtain ⟨hl, hn⟩ := hn
  have hl' : f < w'.objs.length := by cases h <;> first | exact hl | (simp; done) | (simp; omega) | (simp; exact hl)
  refine ⟨hl', fun md mid m rc ho => ?_⟩
  cases h
  case setPrio ho' =>
    simp only [World.ev_objs] at ho
    rcases set_cases ho with ⟨rfl, -⟩ | h
    · exact hn _ _ _ _ ho'
    · exact hn _ _ _ _ h.2
  case detach ho' =>
    rcases set_cases ho with ⟨rfl, h⟩ | h
    · simp only [Obj.send.injEq] at h
      rw [← h.2.2] at ho'
      exact hn _ _ _ _ ho'
    · exact hn _ _ _ _ h.2
  all_goals first
    | exact hn _ _ _ _ ho
    | (simp at ho; exact hn _ _ _ _ ho)
    | (simp at ho; rcases set_cases ho with ⟨rfl, h⟩ | h
       · simp at h; done
       · exact hn _ _ _ _ h.2)
    | (simp [List.getElem?_append, hl] at ho; exact hn md mid m rc (by simp [hl, ho]))

theorem run_notNew {cap : Option Nat} {s s' : Sys} {as : List Act} {f : Nat} (h : Reachable cap s) (hr : s.run as = some s')
    (hn : s.w.notNew f) : s'.w.notNew f := by
  induction as generalizing s with
  | nil => simp [Sys.run] at hr; subst hr; exact hn
  | cons a as ih =>
    simp only [Sys.run] at hr
    split at hr
    · rename_i s1 hs
      refine ih (.step h hs) hr ?_
      rcases step_rel hs with ⟨c, w', ms, rfl, hc, rfl⟩ | ⟨t, m1, rest, w', ms, rfl, ht', hx, rfl⟩
      · exact callR_notNew hc hn
      · refine ⟨?_, fun md mid m rc ho => ?_⟩
        · have := execR_objs_length hx
          simp; have := hn.1; omega
        · rcases execR_objEvo hx ho with h' | ⟨-, h'⟩
          · exact hn.2 _ _ _ _ h'
          · simp [ObjEvo, Obj.inert] at h'
    · simp at hr

/-- **C19**, all interleavings: from the beginning of the first poll of a send or broadcast on, whatever happens in between, an attempt to
set its priority panics, the future is gone, and nothing is reported as set. -/
theorem C19_polled_is_frozen {cap : Option Nat} {s s1 s2 s3 : Sys} {as : List Act} {f wk p : Nat} (h : Reachable cap s)
    (hc : s.step (.call (.pollSend f wk)) = some s1) (hr : s1.run as = some s2) (hs : s2.step (.call (.setPrio f p)) = some s3) :
    ∃ mid, s3.w.log = .prioPanic f mid :: s2.w.log ∧ s3.w.objs[f]? = some .gone := by
  have h1 : s1.w.notNew f := by
    rcases step_rel hc with ⟨c, w', ms, hc', hc, rfl⟩ | ⟨t, m1, rest, w', ms, hc', ht', hx, rfl⟩
    · cases hc'
      have hlt : ∀ {o}, s.w.objs[f]? = some o → f < s.w.objs.length := fun ho => by
        rcases Nat.lt_or_ge f s.w.objs.length with h | h
        · exact h
        · rw [List.getElem?_eq_none h] at ho; simp at ho
      cases hc with
      | pollSend_new ho => exact ⟨by simpa using hlt ho, by simp [World.setObj, hlt ho]⟩
      | pollSend_waiting ho => exact ⟨by simpa using hlt ho, by simp [World.setObj, hlt ho]⟩
      | pollSend_done ho => exact ⟨by simpa using hlt ho, by simp [World.setObj, hlt ho]⟩
    · simp at hc'
  have h2 := run_notNew (.step h hc) hr h1
  rcases step_rel hs with ⟨c, w', ms, hc', hc, rfl⟩ | ⟨t, m1, rest, w', ms, hc', ht', hx, rfl⟩
  · cases hc'
    cases hc with
    | setPrio ho => exact absurd ho (h2.2 _ _ _ _)
    | setPrio_waiting ho => exact ⟨_, rfl, by simp [World.setObj, h2.1]⟩
    | setPrio_done ho => exact ⟨_, rfl, by simp [World.setObj, h2.1]⟩
  · simp at hc'

/-- Meets the hypotheses of `C19_polled_is_frozen`: a parked send, admitted by a receive, whose priority is set while it waits for the reply. -/
example : ∃ s s1 s2 s3, Reachable (some 1) s ∧ s.step (.call (.pollSend 3 0)) = some s1 ∧
    s1.run [.exec 3, .exec 3, .exec 3, .exec 3, .exec 3, .call (.next 1), .call (.pollRecv 4 0), .exec 5] = some s2 ∧
    s2.w.ws = [.delivered (some 0)] ∧ s2.step (.call (.setPrio 3 9)) = some s3 ∧ s3.w.log.head? = some (.prioPanic 3 1) :=
  ⟨_, _, _, _, Reachable.run .init (as := [.call (.send 0), .call (.send 0), .call (.pollSend 2 0), .exec 2, .exec 2, .exec 2, .exec 2, .exec 2]) rfl,
    rfl, rfl, rfl, rfl, rfl⟩

end Xtra
