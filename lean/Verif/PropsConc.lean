import Verif.PropsAgree
/-!
# Cancelled sends (C37) and interrupted dispatch (C38) in the midst of other activity

`PropsCancel` has these for a drop during which nothing else happens. Here the destructor's steps are interleaved with anything.
-/

set_option linter.unusedSimpArgs false

namespace Xtra

theorem step_self {s : Sys} {t : Nat} {m : Micro} {rest : List Micro} (ht : s.th[t]? = some (m :: rest)) :
    ∃ s', s.step (.exec t) = some s' := by
  simp only [Sys.step, ht]; exact ⟨_, rfl⟩

/-- Specification: message `i` is in no queue, was never yielded, never handled, never accepted as a broadcast. -/
def World.neverDelivered (w : World) (i : Nat) : Prop :=
  (∀ m ∈ w.uq, m.id ≠ i) ∧ w.log.countP (Ev.yieldsUni i) = 0 ∧ w.log.countP (Ev.completes i) = 0 ∧ w.log.countP (Ev.acceptsBc i) = 0

theorem countP_zero_of_suffix {p : Ev → Bool} {l l' : List Ev} (h : l <:+ l') (h0 : l'.countP p = 0) : l.countP p = 0 := by
  have := h.sublist.countP_le (p := p); omega

/-- **C37**, all interleavings, never polled: once the drop of a send future that was never polled has begun, whatever else is going on,
the message is in no queue, never yielded, handled or accepted, then and for ever; and the drop destroys it: when it is done, the
message is destroyed. -/
theorem C37_unpolled_concurrent {cap : Option Nat} {s s1 s2 : Sys} {f mid : Nat} {md : Mode} {m : Msg} {rc : Rc} {as : List Act}
    (h : Reachable cap s) (ho : s.w.objs[f]? = some (.send md mid (.new m rc))) (hc : s.step (.call (.dropSend f)) = some s1)
    (hrun : s1.run as = some s2) :
    s2.w.neverDelivered mid ∧ (s2.th[s.th.length]? = some [] → .dropped mid ∈ s2.w.log) := by
  have hr1 : Reachable cap s1 := .step h hc
  have hid := (held_unsent h ho).1
  subst hid
  obtain ⟨w', ms, hcr, hw, hth⟩ := step_newThread hc
  have hms : ms = [.dropMsg m, .dropTx rc] := by
    cases hcr with
    | dropSend_new ho' => rw [ho] at ho'; simp at ho'; obtain ⟨rfl, rfl⟩ := ho'.2.2; rfl
    | dropSend_waiting ho' => rw [ho] at ho'; simp at ho'
    | dropSend_done ho' => rw [ho] at ho'; simp at ho'
  subst hms
  have hlt : s.th.length < s1.th.length := by rw [hth]; simp
  have key := thread_ind (t := s.th.length) hr1 hlt
    (P := fun _ x s2 => x = [.dropMsg m, .dropTx rc] ∨ .dropped m.id ∈ s2.w.log)
    (fun x hx => by rw [hth] at hx; simp at hx; subst hx; exact .inl rfl)
    (fun as x s2 a s3 _ hr2 hp hs => hp.imp id fun hm => (step_suffix hr2 hs).subset hm)
    (fun as mc rest s2 s3 ms _ hr2 hp hx hs => by
      right
      rcases hp with he | hm
      · simp only [List.cons.injEq] at he
        obtain ⟨rfl, rfl⟩ := he
        generalize hw3 : s3.w = w3 at hx
        cases hx with
        | dropMsg => simp
      · exact (step_suffix hr2 hs).subset hm)
    as s2 hrun
  have hr2 : Reachable cap s2 := Reachable.run hr1 hrun
  have hx2 : s2.th[s.th.length]? = some s2.th[s.th.length] := List.getElem?_eq_getElem key.1
  refine ⟨?_, fun hx => ?_⟩
  · rcases key.2 _ hx2 with hp | hm
    · obtain ⟨s3, hs⟩ := step_self (hx2.trans (by rw [hp]))
      obtain ⟨mc, rest, w', ms, he, hx', hw3, -⟩ := step_ofThread hs hx2
      rw [hp] at he
      simp only [List.cons.injEq] at he
      obtain ⟨rfl, -⟩ := he
      have hl : .dropped m.id ∈ s3.w.log ∧ s3.w.uq = s2.w.uq := by
        rw [hw3]; cases hx' with | dropMsg => exact ⟨by simp, rfl⟩
      have hn := C10_never_handled (.step hr2 hs) hl.1
      have hsf := step_suffix hr2 hs
      exact ⟨by rw [← hl.2]; exact hn.1, countP_zero_of_suffix hsf hn.2.1, countP_zero_of_suffix hsf hn.2.2.1,
        countP_zero_of_suffix hsf hn.2.2.2⟩
    · exact C10_never_handled hr2 hm
  · rcases key.2 _ hx with hp | hm
    · simp at hp
    · exact hm

/-- What stays true of a waiting sender's cell while others act. -/
def WsOf (w : World) (hd mid : Nat) : Prop :=
  (∃ y, w.ws[hd]? = some y) ∧ ∀ wk m, w.ws[hd]? = some (.active wk m) → m.id = mid

theorem WsOf.step {cap : Option Nat} {s s' : Sys} {a : Act} {hd mid : Nat} (h : WsOf s.w hd mid) (hr : Reachable cap s)
    (hs : s.step a = some s') : WsOf s'.w hd mid := by
  have rg := regWs_reachable hr
  rcases step_rel hs with ⟨c, w', ms, rfl, hc, rfl⟩ | ⟨t, m1, rest, w', ms, rfl, ht', hx, rfl⟩
  · rw [WsOf, show (Sys.mk w' (s.th ++ [ms])).w.ws = s.w.ws from callR_wsEq hc]; exact h
  · obtain ⟨⟨y, hy⟩, hid⟩ := h
    refine ⟨?_, fun wk m hm => ?_⟩
    · have := execR_evo hx rg hy
      rcases this with h | ⟨_, _, _, _, _, _, -, -, h⟩ | ⟨_, _, -, h, -⟩ | ⟨_, _, -, h, -⟩ | ⟨h, -⟩ <;> exact ⟨_, h⟩
    · rcases execR_wsBack hx rg hm with ⟨wk', h⟩ | ⟨h, -⟩
      · exact hid _ _ h
      · rw [hy] at h; simp at h

/-- **C37**, all interleavings, parked: the drop of a send future that was parked consists of one atomic step, whatever happens between
the beginning of the drop and that step. If the message has not been admitted by then (nor the sender told that the channel closed), the
step destroys it, and it is never delivered, then and for ever; otherwise the step does nothing to any message. -/
theorem C37_parked_concurrent {cap : Option Nat} {s s1 s2 s3 : Sys} {f mid hd : Nat} {md : Mode} {as : List Act}
    (h : Reachable cap s) (ho : s.w.objs[f]? = some (.send md mid (.waiting hd))) (hc : s.step (.call (.dropSend f)) = some s1)
    (hrun : s1.run as = some s2) (hs : s2.step (.exec s.th.length) = some s3) :
    s3.th[s.th.length]? = some [] ∧
    ((∃ wk m, m.id = mid ∧ s2.w.ws[hd]? = some (.active wk m)) ∧ s3.w.log = .dropped mid :: s2.w.log ∧
        (∀ as' s4, s3.run as' = some s4 → s4.w.neverDelivered mid) ∨
      (∃ wk, s2.w.ws[hd]? = some (.delivered wk) ∨ s2.w.ws[hd]? = some (.closed wk)) ∧ s3.w = { s2.w with ws := s2.w.ws.set hd .gone }) := by
  have hr1 : Reachable cap s1 := .step h hc
  obtain ⟨w', ms, hcr, hw, hth⟩ := step_newThread hc
  have hms : ms = [.dropWs hd] := by
    cases hcr with
    | dropSend_new ho' => rw [ho] at ho'; simp at ho'
    | dropSend_waiting ho' => rw [ho] at ho'; simp at ho'; obtain ⟨rfl, rfl, rfl⟩ := ho'; rfl
    | dropSend_done ho' => rw [ho] at ho'; simp at ho'
  subst hms
  have hlt : s.th.length < s1.th.length := by rw [hth]; simp
  have hW : WsOf s1.w hd mid := by
    rw [hw, WsOf, callR_wsEq hcr]
    refine ⟨?_, fun wk m hm => (wsId_reachable h).obj ho hm⟩
    have a := le_sumBy (oWs hd) ho
    have c := (own_reachable h).ws hd
    have e : wsActive s.w.ws hd = true := by
      unfold wsL at c; split at c
      · assumption
      · simp [oWs, sWs, is1] at a; omega
    exact ⟨_, List.getElem?_eq_getElem (wsActive_lt e)⟩
  have key := thread_ind (t := s.th.length) hr1 hlt
    (P := fun _ x s2 => WsOf s2.w hd mid ∧ (x = [.dropWs hd] ∨ x = []))
    (fun x hx => by rw [hth] at hx; simp at hx; subst hx; exact ⟨hW, .inl rfl⟩)
    (fun as x s2 a s3 _ hr2 hp hs => ⟨hp.1.step hr2 hs, hp.2⟩)
    (fun as mc rest s2 s3 ms _ hr2 hp hx hs => by
      refine ⟨hp.1.step hr2 hs, .inr ?_⟩
      rcases hp.2 with he | he
      · simp only [List.cons.injEq] at he
        obtain ⟨rfl, rfl⟩ := he
        generalize hw3 : s3.w = w3 at hx
        cases hx <;> rfl
      · simp at he)
    as s2 hrun
  have hr2 : Reachable cap s2 := Reachable.run hr1 hrun
  have hr3 : Reachable cap s3 := .step hr2 hs
  have hx2 : s2.th[s.th.length]? = some s2.th[s.th.length] := List.getElem?_eq_getElem key.1
  obtain ⟨mc, rest, w', ms, he, hx', hw3, hth3⟩ := step_ofThread hs hx2
  obtain ⟨⟨⟨y, hy⟩, hid⟩, hp⟩ := key.2 _ hx2
  rcases hp with hp | hp
  · have e : wsActive s2.w.ws hd = true := by
      have a := sum_ne_of_mem (mWs hd) (x := .dropWs hd) (xs := s2.th[s.th.length]) (by rw [hp]; simp)
      have b := sum_ne_of_mem (sumBy (mWs hd)) (List.mem_of_getElem? hx2)
      have c := (own_reachable hr2).ws hd
      have d : 0 < tot (mWs hd) s2.th := by simp only [tot]; simp [mWs, is1] at a; omega
      unfold wsL at c; split at c
      · assumption
      · omega
    rw [hp] at he
    simp only [List.cons.injEq] at he
    obtain ⟨rfl, rfl⟩ := he
    cases hx' with
    | @dropWs_active _ wk m h3 =>
      have hmid := hid _ _ h3
      have hl : s3.w.log = .dropped mid :: s2.w.log := by rw [hw3, ← hmid]; simp
      refine ⟨hth3, .inl ⟨⟨wk, m, hmid, h3⟩, hl, fun as' s4 h4 => ?_⟩⟩
      obtain ⟨h5, h6⟩ := run_suffix hr3 h4
      exact C10_never_handled h6 (h5.subset (by rw [hl]; simp))
    | dropWs_other h3 =>
      refine ⟨hth3, .inr ⟨?_, hw3⟩⟩
      cases y with
      | active wk m => exact absurd hy (h3 wk m)
      | delivered wk => exact ⟨wk, .inl hy⟩
      | closed wk => exact ⟨wk, .inr hy⟩
      | gone => simp [wsActive, hy] at e
  · rw [hp] at he; simp at he

/-- **C37**, all interleavings, admitted: dropping a send future whose message has been admitted, in whatever state of whatever execution, is over at
once, and nothing but the future goes: the queues, the message, its place and the steps of all other calls are what they were. (With
`C62_giving_up_changes_nothing`: everything that happens from then on could have happened with the future alive.) -/
theorem C37_admitted_concurrent {s s1 : Sys} {f mid : Nat} {md : Mode} (ho : s.w.objs[f]? = some (.send md mid .done))
    (hc : s.step (.call (.dropSend f)) = some s1) : s1.w = { s.w with objs := s.w.objs.set f .gone } ∧ s1.th = s.th ++ [[]] := by
  obtain ⟨w', ms, hcr, hw, hth⟩ := step_newThread hc
  cases hcr with
  | dropSend_new ho' => rw [ho] at ho'; simp at ho'
  | dropSend_waiting ho' => rw [ho] at ho'; simp at ho'
  | dropSend_done ho' => exact ⟨hw, hth⟩

/-- Meets the hypotheses of `C37_admitted_concurrent`: a request in the queue; another one is just being sent. -/
example : ∃ s s1, Reachable (some 2) s ∧ s.w.objs[2]? = some (.send .ret 0 .done) ∧ s.w.uq.length = 1 ∧ s.th[3]? ≠ some [] ∧
    s.step (.call (.dropSend 2)) = some s1 :=
  ⟨_, _, Reachable.run .init (as := [.call (.send 0), .call (.pollSend 2 7), .exec 1, .exec 1, .exec 1, .exec 1, .exec 1,
    .call (.send 0), .call (.pollSend 3 7), .exec 3]) rfl, rfl, rfl, by decide, rfl⟩

/-- A message whose handler's dispatch is being dropped. -/
theorem discarding_post {cap : Option Nat} {s : Sys} (h : Reachable cap s) {m : Msg} {x : List Micro} (hx : x ∈ s.th)
    (hm : .discard (.one m) ∈ x) :
    s.w.log.countP (Ev.yieldsUni m.id) = 1 ∧ (∀ y ∈ s.w.uq, y.id ≠ m.id) ∧ s.w.log.countP (Ev.completes m.id) = 0 := by
  have h1 := held_reachable h m.id
  have h2 := created_le m.id s.w
  have h3 := post_reachable h m.id
  have h7 := sum_ne_of_mem (mPost m.id) hm
  have h8 := sum_ne_of_mem (sumBy (mPost m.id)) hx
  have h9 := tot_le (mPost_le m.id) s.th
  have hc := C02_at_most_once h m.id
  simp only [World.held] at h1
  simp only [World.post] at h3
  rw [eRecv_count] at h3
  simp [mPost, amW, mid1] at h7
  have h10 : 0 < tot (mPost m.id) s.th := by simp only [tot]; omega
  refine ⟨by omega, fun y hy hi => ?_, ?_⟩
  · obtain ⟨k, hk⟩ := List.getElem?_of_mem hy
    have := le_sumBy (mid1 m.id) hk
    simp [mid1, hi] at this; omega
  · rw [List.countP_eq_zero]
    intro e he hcomp
    cases e <;> simp [Ev.completes] at hcomp
    subst hcomp
    have := (notDestroyed_of (i := m.id) (log := s.w.log) (by omega)).2
    rename_i r
    exact this r he

/-- **C38**, all interleavings: from the beginning of the drop of the dispatch future of unicast message `m`, whatever else is going on,
the message is in no queue, was yielded exactly once, and its handler never completes; when the drop is done the message is destroyed (so
its reply is `Interrupted`, C18); and no step of the drop touches another message as long as a mailbox reference is left, except that the
actor's own broadcasts may go with its last handle. -/
theorem C38_concurrent {cap : Option Nat} {s s1 s2 : Sys} {o b : Nat} {m : Msg} {run : Bool} {as : List Act}
    (h : Reachable cap s) (ho : s.w.objs[o]? = some (.dispatch b (.one m) run)) (hc : s.step (.call (.dropDispatch o)) = some s1)
    (hrun : s1.run as = some s2) :
    (∀ y ∈ s2.w.uq, y.id ≠ m.id) ∧ s2.w.log.countP (Ev.yieldsUni m.id) = 1 ∧ s2.w.log.countP (Ev.completes m.id) = 0 ∧
    (s2.th[s.th.length]? = some [] → Destroyed s2.w.log m.id) ∧
    (∀ s3, s2.step (.exec s.th.length) = some s3 → s2.w.rcv ≠ 0 →
      s3.w.uq = s2.w.uq ∧ s3.w.cells = s2.w.cells ∧ s3.w.ws = s2.w.ws ∧ s3.w.wOne = s2.w.wOne ∧ s3.w.wAll = s2.w.wAll ∧
      (∀ b', b' ≠ b → s3.w.items b' = s2.w.items b') ∧ (s3.w.log = s2.w.log ∨ s3.w.log = .discarded m.id :: s2.w.log)) := by
  have hr1 : Reachable cap s1 := .step h hc
  obtain ⟨w', ms, hcr, hw, hth⟩ := step_newThread hc
  have hms : ms = [.dropRx, .dropBq b, .discard (.one m)] := by
    cases hcr with
    | dropDispatch ho' => rw [ho] at ho'; simp at ho'; obtain ⟨rfl, rfl, -⟩ := ho'; rfl
  subst hms
  have hlt : s.th.length < s1.th.length := by rw [hth]; simp
  have key := thread_ind (t := s.th.length) hr1 hlt
    (P := fun _ x s2 => x = [.dropRx, .dropBq b, .discard (.one m)] ∨ (x = [.shutTx, .dropBq b, .discard (.one m)] ∧ s2.w.rcv = 0) ∨
      x = [.dropBq b, .discard (.one m)] ∨ x = [.discard (.one m)] ∨ (x = [] ∧ .discarded m.id ∈ s2.w.log))
    (fun x hx => by rw [hth] at hx; simp at hx; subst hx; exact .inl rfl)
    (fun as x s2 a s3 _ hr2 hp hs => by
      rcases hp with hp | ⟨hp, h0⟩ | hp | hp | ⟨hp, hm⟩
      · exact .inl hp
      · exact .inr (.inl ⟨hp, (C15_zero_forever hr2 hs).2 h0⟩)
      · exact .inr (.inr (.inl hp))
      · exact .inr (.inr (.inr (.inl hp)))
      · exact .inr (.inr (.inr (.inr ⟨hp, (step_suffix hr2 hs).subset hm⟩))))
    (fun as mc rest s2 s3 ms _ hr2 hp hx hs => by
      generalize hw3 : s3.w = w3 at hx
      rcases hp with hp | ⟨hp, h0⟩ | hp | hp | ⟨hp, hm⟩ <;> (try simp only [List.cons.injEq] at hp)
      · obtain ⟨rfl, rfl⟩ := hp
        cases hx with
        | dropRx_last h1 => exact .inr (.inl ⟨rfl, by simp [h1]⟩)
        | dropRx_more h1 => exact .inr (.inr (.inl rfl))
      · obtain ⟨rfl, rfl⟩ := hp
        cases hx with
        | shutTx => exact .inr (.inr (.inl rfl))
      · obtain ⟨rfl, rfl⟩ := hp
        cases hx with
        | dropBq => exact .inr (.inr (.inr (.inl rfl)))
      · obtain ⟨rfl, rfl⟩ := hp
        cases hx with
        | discard_one => exact .inr (.inr (.inr (.inr ⟨rfl, by simp⟩)))
        | discard_other h1 => exact absurd rfl (h1 m)
      · simp at hp)
    as s2 hrun
  have hr2 : Reachable cap s2 := Reachable.run hr1 hrun
  have hx2 : s2.th[s.th.length]? = some s2.th[s.th.length] := List.getElem?_eq_getElem key.1
  have main : s2.w.log.countP (Ev.yieldsUni m.id) = 1 ∧ (∀ y ∈ s2.w.uq, y.id ≠ m.id) ∧ s2.w.log.countP (Ev.completes m.id) = 0 := by
    by_cases hd : .discard (.one m) ∈ s2.th[s.th.length]
    · exact discarding_post hr2 (List.mem_of_getElem? hx2) hd
    · rcases key.2 _ hx2 with hp | ⟨hp, h0⟩ | hp | hp | ⟨hp, hm⟩
      · rw [hp] at hd; simp at hd
      · rw [hp] at hd; simp at hd
      · rw [hp] at hd; simp at hd
      · rw [hp] at hd; simp at hd
      · refine ⟨?_, discarded_gone hr2 hm, ?_⟩
        · have h3 := post_reachable hr2 m.id
          have hcc := C02_at_most_once hr2 m.id
          simp only [World.post] at h3
          rw [eRecv_count] at h3
          have := sum_ne_of_mem (ePost m.id) hm
          simp [ePost, n1] at this
          omega
        · rw [List.countP_eq_zero]
          intro e he hcomp
          cases e <;> simp [Ev.completes] at hcomp
          subst hcomp
          exact (fin_excl hr2 he).1 (.inr (.inr hm))
  refine ⟨main.2.1, main.1, main.2.2, fun hx => ?_, fun s3 hs h0 => ?_⟩
  · rcases key.2 _ hx with hp | ⟨hp, -⟩ | hp | hp | ⟨-, hm⟩ <;> try simp at hp
    exact .inr (.inr hm)
  · obtain ⟨mc, rest, w', ms, he, hx', hw3, -⟩ := step_ofThread hs hx2
    rw [hw3]
    have hp := key.2 _ hx2
    rw [he] at hp
    rcases hp with hp | ⟨hp, h00⟩ | hp | hp | ⟨hp, hm⟩ <;> (try simp only [List.cons.injEq] at hp)
    · obtain ⟨rfl, -⟩ := hp
      cases hx' with
      | dropRx_last h1 => exact ⟨rfl, rfl, rfl, rfl, rfl, fun _ _ => rfl, .inl rfl⟩
      | dropRx_more h1 => exact ⟨rfl, rfl, rfl, rfl, rfl, fun _ _ => rfl, .inl rfl⟩
    · exact absurd h00 h0
    · obtain ⟨rfl, -⟩ := hp
      cases hx' with
      | dropBq =>
        refine ⟨by simp, by simp, by simp, by simp, by simp, fun b' hb' => ?_, .inl (by simp)⟩
        rw [decBq_items]
        split
        · rename_i hx; exact absurd hx.1 hb'
        · rfl
    · obtain ⟨rfl, -⟩ := hp
      cases hx' with
      | discard_one => exact ⟨rfl, rfl, rfl, rfl, rfl, fun _ _ => rfl, .inr rfl⟩
      | discard_other h1 => exact absurd rfl (h1 m)
    · simp at hp

/-- Meets the hypotheses of `C37_unpolled_concurrent`: between the two steps of the drop, another message is sent and received. -/
example : ∃ s s1 s2, Reachable none s ∧ s.w.objs[2]? = some (.send .ret 0 (.new ⟨0, .valued 0⟩ .strong)) ∧
    s.step (.call (.dropSend 2)) = some s1 ∧
    s1.run [.call (.pollSend 3 0), .exec 3, .exec 3, .exec 3, .exec 2, .call (.next 1), .call (.pollRecv 4 0), .exec 5, .exec 2] = some s2 ∧
    s2.th[s.th.length]? = some [] ∧ .recv 4 0 (.one ⟨1, .valued 0⟩) ∈ s2.w.log :=
  ⟨_, _, _, Reachable.run .init (as := [.call (.send 0), .call (.send 0)]) rfl, rfl, rfl, rfl, rfl, by decide⟩
/-- Meets the hypotheses of `C37_parked_concurrent`, first case. -/
example : ∃ s s1 s2 s3, Reachable (some 1) s ∧ s.w.objs[3]? = some (.send .ret 1 (.waiting 0)) ∧ s.step (.call (.dropSend 3)) = some s1 ∧
    s1.run [] = some s2 ∧ s2.step (.exec s.th.length) = some s3 ∧ s3.w.log = .dropped 1 :: s2.w.log :=
  ⟨_, _, _, _, Reachable.run .init (as := exDropSendSched) rfl, rfl, rfl, rfl, rfl, rfl⟩
/-- Meets the hypotheses of `C37_parked_concurrent`, second case: a receive admits the message after the drop has begun. -/
example : ∃ s s1 s2 s3, Reachable (some 1) s ∧ s.w.objs[3]? = some (.send .ret 1 (.waiting 0)) ∧ s.step (.call (.dropSend 3)) = some s1 ∧
    s1.run [.call (.next 1), .call (.pollRecv 4 0), .exec 6] = some s2 ∧ s2.step (.exec s.th.length) = some s3 ∧
    s3.w.uq = [⟨1, .valued 0⟩] :=
  ⟨_, _, _, _, Reachable.run .init (as := exDropSendSched) rfl, rfl, rfl, rfl, rfl, rfl⟩
/-- Meets the hypotheses of `C38_concurrent`: in the midst of the drop the other message is received. -/
example : ∃ s s1 s2 s3, Reachable (some 5) s ∧ s.w.objs[4]? = some (.dispatch 0 (.one ⟨0, .valued 0⟩) true) ∧
    s.step (.call (.dropDispatch 4)) = some s1 ∧ s1.run [.exec 7, .exec 7, .call (.next 1), .call (.pollRecv 5 0), .exec 9] = some s2 ∧
    s2.w.rcv ≠ 0 ∧ s2.step (.exec s.th.length) = some s3 ∧ s3.w.log = .discarded 0 :: .recv 5 0 (.one ⟨1, .valued 0⟩) :: s.w.log :=
  ⟨_, _, _, _, Reachable.run .init (as := exDropDispatchSched) rfl, rfl, rfl, rfl, by decide, rfl, rfl⟩

/-- **C36**, the other half: messages sent with `send` are there for every mailbox. Whichever mailbox `b` a fresh receive is made on, and
whatever the other mailboxes are doing: if a unicast message is queued and no broadcast waiting in `b` is more important than all of them,
the step in which the receive looks into the queues yields a unicast message from the common queue, of maximal priority; and what it
yields is no longer there for the others. -/
theorem C36_unicast_any_mailbox {cap : Option Nat} {s s' : Sys} {t r b wk : Nat} {rest : List Micro} (h : Reachable cap s)
    (ht : s.th[t]? = some (.recvTry r b wk :: rest)) (hs : s.step (.exec t) = some s') (hne : s.w.uq ≠ [])
    (hb : ∀ x ∈ s.w.items b, ∃ y ∈ s.w.uq, x.prio ≤ y.prio) :
    ∃ m ∈ s.w.uq, (∀ x ∈ s.w.uq, x.prio ≤ m.prio) ∧ s'.w.yielded r b (.one m) ∧ ∀ x ∈ s'.w.uq, x.id ≠ m.id := by
  rcases C01_highest_priority_first_concurrent h ht hs with ⟨m, h1, h2, h3, h4⟩ | ⟨m, h1, h2, h3, h4⟩ | ⟨h1, -⟩ | ⟨h1, -⟩
  · refine ⟨m, h1, h2, h4, ?_⟩
    have k1 := held_reachable (.step h hs) m.id
    have k2 := created_le m.id s'.w
    have k3 := le_sumBy (oAll m.id) h4.1
    simp [oAll, amW, mid1] at k3
    simp only [World.held] at k1
    intro x hx hi
    obtain ⟨k, hk⟩ := List.getElem?_of_mem hx
    have := le_sumBy (mid1 m.id) hk
    simp [mid1, hi] at this; omega
  · obtain ⟨y, hy, hle⟩ := hb m h1
    exact absurd hle (h3 y hy)
  · exact absurd h1 hne
  · exact absurd h1 hne

/-- Two mailboxes, a broadcast in each, and a unicast message of the same priority: meets the hypotheses of `C36_unicast_any_mailbox` for
the second mailbox. -/
def exAnyMailbox : List Act :=
  [.call (.cloneMailbox 1), .exec 0, .call (.broadcast 0), .call (.pollSend 3 0), .exec 2, .exec 2, .exec 2, .exec 2, .exec 2,
   .call (.send 0), .call (.pollSend 4 0), .exec 4, .exec 4, .exec 4, .exec 4, .exec 4, .call (.next 2), .call (.pollRecv 5 0)]

example : ∃ s s', Reachable none s ∧ s.th[6]? = some [.recvTry 5 1 0] ∧ s.step (.exec 6) = some s' ∧ s.w.uq = [⟨1, .valued 0⟩] ∧
    s.w.items 1 = [⟨0, .valued 0⟩] ∧ s'.w.yielded 5 1 (.one ⟨1, .valued 0⟩) :=
  ⟨_, _, Reachable.run .init (as := exAnyMailbox) rfl, rfl, rfl, rfl, rfl, rfl, rfl⟩

end Xtra
