import Verif.PropsConc2
import Verif.PropsStop
import Verif.PropsPark
import Verif.PropsLen
/-! # C13, C16, C23, C30 in the midst of other activity

The theorems about whole calls (`Quiet`, `Does`) say what a call does when no other is in progress. Here the same properties are proved of
the decisive steps of the calls in arbitrary interleavings. -/

set_option linter.unusedSimpArgs false

namespace Xtra

/-! ## C13 -/

/-- **C13**, all interleavings. Whatever else is going on, a receive that yields the shutdown notice does so with no strong address left,
and, unless it had been waiting and was sent the notice while it waited, with nothing left for it to receive: no unicast message is queued,
no broadcast is in its mailbox and (capacity other than 0) no unicast send is parked. -/
theorem C13_notice_concurrent {cap : Option Nat} {s s' : Sys} {a : Act} {b r : Nat} (h : Reachable cap s) (hs : s.step a = some s')
    (hy : .recv r b .shutdown ∈ s'.w.log) (ho : .recv r b .shutdown ∉ s.w.log) :
    s.w.sc = 0 ∧
    ((s.w.uq = [] ∧ s.w.items b = [] ∧ (cap ≠ some 0 → ∀ f md m, md ≠ .bcast → ¬ s.w.parkedSend f md m)) ∨
     ∃ t c wk rest x, a = .exec t ∧ s.th[t]? = some (.recvPoll r b c wk :: rest) ∧ s.w.cells[c]? = some (.full .shutdown x)) := by
  obtain ⟨t, wk, rest, rfl, h1⟩ := yields_at h hs hy ho
  rcases h1 with ⟨ht, ⟨m, he, -⟩ | ⟨m, he, -⟩ | ⟨-, hu, hi, h0⟩⟩ | ⟨c, m, x, -, he, -⟩ | ⟨c, x, ht, -, hc, h0⟩ | ⟨c, m, -, he, -⟩
  · simp at he
  · simp at he
  · refine ⟨h0, .inl ⟨hu, hi, fun hcap f md m hmd hp => ?_⟩⟩
    obtain ⟨c, rfl, hle⟩ := C08_parked_only_when_full h hmd hp
    rw [hu] at hle
    simp at hle
    subst hle
    exact hcap rfl
  · simp at he
  · exact ⟨h0, .inr ⟨t, c, wk, rest, x, rfl, ht, hc⟩⟩
  · simp at he

/-- `thread_ind`, with the thread itself as a hypothesis of its own steps. -/
theorem thread_ind2 {cap : Option Nat} {s1 : Sys} {t : Nat} (hr : Reachable cap s1) (hlt : t < s1.th.length)
    {P : List Act → List Micro → Sys → Prop} (h0 : ∀ x, s1.th[t]? = some x → P [] x s1)
    (other : ∀ as x s2 a s3, s1.run as = some s2 → Reachable cap s2 → P as x s2 → s2.step a = some s3 → P (as ++ [a]) x s3)
    (own : ∀ as m rest s2 s3 ms, s1.run as = some s2 → Reachable cap s2 → P as (m :: rest) s2 → s2.th[t]? = some (m :: rest) →
      ExecR s2.w m s3.w ms → s2.step (.exec t) = some s3 → P (as ++ [.exec t]) (ms ++ rest) s3) :
    ∀ as s2, s1.run as = some s2 → t < s2.th.length ∧ ∀ x, s2.th[t]? = some x → P as x s2 := by
  refine run_ind ⟨hlt, h0⟩ ?_
  intro as s2 a s3 hrun ⟨hl, hp⟩ hs
  have hr2 : Reachable cap s2 := Reachable.run hr hrun
  refine ⟨Nat.lt_of_lt_of_le hl (step_len hs), fun x hx => ?_⟩
  rcases step_thread hs hl with rfl | heq
  · have hx2 : s2.th[t]? = some s2.th[t] := List.getElem?_eq_getElem hl
    obtain ⟨m, rest, w', ms, he, hx', rfl, hth⟩ := step_ofThread hs hx2
    rw [hx] at hth; simp at hth; subst hth
    have := hp _ hx2
    rw [he] at this hx2
    exact own as m rest s2 s3 ms hrun hr2 this hx2 hx' hs
  · rw [heq] at hx
    exact other as x s2 a s3 hrun hr2 (hp x hx) hs

/-! ## C16 -/

/-- Specification: at some step of the run `as` from `s1` thread `t` put a new message of shutdown priority into every mailbox that
existed at that moment, leaving everything that was queued in its place. -/
def PutNoticeEverywhere (s1 : Sys) (as : List Act) (t : Nat) : Prop :=
  ∃ as1 as2 s3 s4, as = as1 ++ .exec t :: as2 ∧ s1.run as1 = some s3 ∧ s3.step (.exec t) = some s4 ∧
    ∃ n : Msg, n.prio = .shutdown ∧ n.id = s3.w.resp.length ∧ s4.w.uq = s3.w.uq ∧
      ∀ b, s3.w.mailboxLive b → n ∈ s4.w.items b ∧ ∀ m ∈ s3.w.items b, m ∈ s4.w.items b

theorem PutNoticeEverywhere.snoc {s1 : Sys} {as : List Act} {t : Nat} (h : PutNoticeEverywhere s1 as t) (a : Act) :
    PutNoticeEverywhere s1 (as ++ [a]) t := by
  obtain ⟨as1, as2, s3, s4, rfl, h1, h2, h3⟩ := h
  exact ⟨as1, as2 ++ [a], s3, s4, by simp, h1, h2, h3⟩

/-- **C16**, all interleavings. `stop_all` called in a handler while a strong address exists: whatever happens meanwhile (the last address
may be dropped right after the call began), when the call has returned it has put a shutdown notice into every mailbox that existed at the
moment it did so. The call itself keeps the channel open until then. -/
theorem C16_stop_all_concurrent {cap : Option Nat} {s s1 s2 : Sys} {o : Nat} {as : List Act} (h : Reachable cap s) (h0 : s.w.sc ≠ 0)
    (hc : s.step (.call (.stopAll o)) = some s1) (hrun : s1.run as = some s2) :
    (s2.th[s.th.length]? = some [.bcastShutdown, .dropTx .strong] → s2.w.sc ≠ 0) ∧
    (s2.th[s.th.length]? = some [] → PutNoticeEverywhere s1 as s.th.length) := by
  have hr1 : Reachable cap s1 := .step h hc
  obtain ⟨w', ms, hcr, hw, hth⟩ := step_newThread hc
  have hms : ms = [.bcastShutdown, .dropTx .strong] := by
    cases hcr with
    | stopAll_no h1 h2 => exact absurd h2 h0
    | stopAll_yes h1 h2 => rfl
  subst hms
  have hlt : s.th.length < s1.th.length := by rw [hth]; simp
  have key := thread_ind2 (t := s.th.length) hr1 hlt
    (P := fun as x _ => x = [.bcastShutdown, .dropTx .strong] ∨
      ((∀ m ∈ x, m.giveBack = true) ∧ PutNoticeEverywhere s1 as s.th.length))
    (fun x hx => by
      rw [hth] at hx; simp at hx; exact .inl hx.symm)
    (fun as x s2 a s3 _ hr2 hp hs => hp.imp id (And.imp id fun h => h.snoc a))
    (fun as m rest s2 s3 ms hr hr2 hp ht hx hs => by
      right
      rcases hp with he | ⟨hg, hn⟩
      · simp only [List.cons.injEq] at he
        obtain ⟨rfl, rfl⟩ := he
        refine ⟨?_, as, [], s2, s3, by simp, hr, hs, C16_notice_everywhere hr2 ht hs⟩
        generalize hw3 : s3.w = w3 at hx
        cases hx
        simp [Micro.giveBack]
      · refine ⟨fun x hx' => ?_, hn.snoc _⟩
        rcases List.mem_append.mp hx' with hx' | hx'
        · exact (execR_giveBack hx (hg m (by simp))).2 x hx'
        · exact hg x (by simp [hx']))
    as s2 hrun
  have hr2 : Reachable cap s2 := Reachable.run hr1 hrun
  refine ⟨fun hx => ?_, fun hx => ?_⟩
  · obtain ⟨hc1, -⟩ := C14_counts_exact hr2
    have hm : Micro.dropTx .strong ∈ s2.th.flatten := List.mem_flatten.mpr ⟨_, List.mem_of_getElem? hx, by simp⟩
    have : 0 < s2.th.flatten.countP Micro.holdsStrong := List.countP_pos_iff.mpr ⟨_, hm, rfl⟩
    omega
  · rcases key.2 _ hx with h1 | h1
    · simp at h1
    · exact h1.2

/-! ## C23 -/

/-- **C23**, all interleavings: what `join` gives, whatever is going on while it looks. Of its two steps the first may and the second must
put the handle into its place. It is one that is ready only if the actor is out of reach by then, and otherwise one that waits, has not been
notified as long as a mailbox exists, and will be notified by whoever drops the last mailbox (`C23_notification_under_way`). -/
theorem C23_created_concurrent {cap : Option Nat} {s s1 s2 s3 : Sys} {i : Nat} {as : List Act} (h : Reachable cap s)
    (hc : s.step (.call (.join i)) = some s1) (hrun : s1.run as = some s2) (hs : s2.step (.exec s.th.length) = some s3) :
    (s3.w.objs = s2.w.objs ∧ s3.th[s.th.length]? ≠ some []) ∨
    (s3.th[s.th.length]? = some [] ∧
      ((s3.w.objs[s.w.objs.length]? = some (.join none) ∧ s3.w.ended) ∨
       (∃ l, s3.w.objs[s.w.objs.length]? = some (.join (some l)) ∧ (s3.w.rcv ≠ 0 → ∃ x, s3.w.lst[l]? = some (.waiting x))))) := by
  have hr1 : Reachable cap s1 := .step h hc
  obtain ⟨w', ms, hcr, hw, hth⟩ := step_newThread hc
  have hms : ms = [.join1 s.w.objs.length s.w.lst.length] := by
    cases hcr; exact rfl
  subst hms
  have hlt : s.th.length < s1.th.length := by rw [hth]; simp
  have key := thread_ind2 (t := s.th.length) hr1 hlt
    (P := fun _ x _ => x = [.join1 s.w.objs.length s.w.lst.length] ∨ x = [.join2 s.w.objs.length s.w.lst.length] ∨ x = [])
    (fun x hx => by
      rw [hth] at hx; simp at hx; exact .inl hx.symm)
    (fun as x s2 a s3 _ hr2 hp hs => hp)
    (fun as m rest s2 s3 ms hr hr2 hp ht hx hs => by
      right
      rcases hp with he | he | he
      · simp only [List.cons.injEq] at he
        obtain ⟨rfl, rfl⟩ := he
        generalize hw3 : s3.w = w3 at hx
        cases hx <;> simp
      · simp only [List.cons.injEq] at he
        obtain ⟨rfl, rfl⟩ := he
        generalize hw3 : s3.w = w3 at hx
        cases hx <;> simp
      · simp at he)
    as s2 hrun
  have hr2 : Reachable cap s2 := Reachable.run hr1 hrun
  have hr3 : Reachable cap s3 := .step hr2 hs
  have hx2 : s2.th[s.th.length]? = some s2.th[s.th.length] := List.getElem?_eq_getElem key.1
  obtain ⟨mc, rest, w', ms, he, hx', hw3, hth3⟩ := step_ofThread hs hx2
  have hp := key.2 _ hx2
  rw [he] at hp hx2
  have hol : s.w.objs.length < s2.w.objs.length := by
    have hsl : mc.slot = some s.w.objs.length := by
      rcases hp with hp | hp | hp <;> simp at hp
      · rw [hp.1]; rfl
      · rw [hp.1]; rfl
    exact (List.getElem?_eq_some_iff.mp (slot_lt hr2 hx2 hsl)).1
  have j := jInv_reachable hr3
  rcases hp with hp | hp | hp
  · simp only [List.cons.injEq] at hp
    obtain ⟨rfl, rfl⟩ := hp
    rw [hw3]
    cases hx' with
    | join1_no h1 => right; exact ⟨by simpa using hth3, .inl ⟨by simp [World.setObj, hol], .inl h1⟩⟩
    | join1_yes h1 => left; exact ⟨rfl, by rw [hth3]; simp⟩
  · simp only [List.cons.injEq] at hp
    obtain ⟨rfl, rfl⟩ := hp
    cases hx' with
    | join2_no h1 => right; rw [hw3]; exact ⟨by simpa using hth3, .inl ⟨by simp [World.setObj, hol], .inr h1⟩⟩
    | join2_yes h1 =>
      right
      have hj : s3.w.objs[s.w.objs.length]? = some (.join (some s.w.lst.length)) := by rw [hw3]; simp [World.setObj, hol]
      refine ⟨by simpa using hth3, .inr ⟨_, hj, fun hn => ?_⟩⟩
      obtain ⟨hl, -⟩ := j.obj _ _ hj
      cases hcell : s3.w.lst[s.w.lst.length]'hl with
      | waiting x => exact ⟨x, by rw [List.getElem?_eq_getElem hl, hcell]⟩
      | notified x => exact absurd (j.ntf _ x (by rw [List.getElem?_eq_getElem hl, hcell])) hn
  · simp at hp

/-! ## C30 -/

/-- **C30 (partial)**, all interleavings: as long as every mailbox ever created on this address is still alive, if at the step of a broadcast
that decides every live mailbox holds fewer broadcasts than the capacity, the message is put into every one of them. Missing: see
`C30_refuted`. -/
theorem C30_concurrent_partial {cap : Option Nat} {s s' : Sys} {t f wk : Nat} {m : Msg} {rc : Rc} {rest : List Micro}
    (h : Reachable cap s) (hk : ∀ b, b < s.w.bq.length → s.w.mailboxLive b)
    (hlt : ∀ c, cap = some c → ∀ b, s.w.mailboxLive b → (s.w.items b).length < c)
    (ht : s.th[t]? = some (.sendCrit f .bcast m rc wk :: rest)) (hs : s.step (.exec t) = some s') :
    (∃ ts, .bsent m ts ∈ s'.w.log) ∧ s'.th[t]? = some (.dropTx rc :: .sendFin f .bcast m.id wk :: rest) ∧
      ∀ b, s.w.mailboxLive b → (s'.w.items b).Perm (m :: s.w.items b) := by
  obtain ⟨as, hr⟩ := reachable_schedule h
  have hb : 0 < s.w.bq.length := by
    have := (run_dead as .init hr).1
    simp [init] at this; omega
  have hx : s.w.longestLive s.w.tail := by
    refine C28_exact_partial .init (by simp [init]) ⟨fun b _ => ?_, .inl rfl⟩ hr (fun b h => .inl (hk b h)) ⟨0, hk 0 hb⟩
    cases b <;> simp [init, World.items]
  refine (C07_accepted_concurrent h ht hs).1 fun c hc => ?_
  rw [cap_reachable h] at hc
  rcases hx.2 with h0 | ⟨b, h1, h2⟩
  · have := hlt c hc 0 (hk 0 hb); omega
  · have := hlt c hc b h1; omega

/-- A fresh receive is told to shut down while the call that dropped the last address has yet to tell the waiting ones; another receive was
waiting and is told by its cell. Meets the hypotheses of `C13_notice_concurrent`, in both alternatives. -/
example : ∃ s s' s0 s0', Reachable (some 1) s ∧ s.step (.exec 2) = some s' ∧ s'.w.log = .recv 2 0 .shutdown :: s.w.log ∧
    s.th[1]? = some [.shutRx] ∧ Reachable (some 1) s0 ∧ s0.step (.exec 3) = some s0' ∧ s0'.w.log = .recv 2 0 .shutdown :: s0.w.log ∧
    s0.th[3]? = some [.recvPoll 2 0 0 1] :=
  ⟨_, _, _, _, Reachable.run .init (as := [.call (.next 1), .call (.dropAddr 0), .exec 1, .call (.pollRecv 2 0)]) rfl, rfl, rfl, rfl,
    Reachable.run .init (as := [.call (.next 1), .call (.pollRecv 2 0), .exec 1, .exec 1, .call (.dropAddr 0), .exec 2, .exec 2, .exec 2,
      .call (.pollRecv 2 1)]) rfl, rfl, rfl, rfl⟩

/-- `stop_all` is called; the last address is dropped before it does anything; both mailboxes get the notice all the same. Meets the
hypotheses of `C16_stop_all_concurrent`. -/
example : ∃ s s1 s2, Reachable (some 1) s ∧ s.w.sc = 1 ∧ s.step (.call (.stopAll 3)) = some s1 ∧
    s1.run [.call (.dropAddr 0), .exec 10, .exec 9, .exec 9, .exec 9] = some s2 ∧ s2.th[s.th.length]? = some [] ∧ s2.w.sc = 0 ∧
    s2.w.items 0 = [⟨2, .shutdown⟩] ∧ s2.w.items 1 = [⟨2, .shutdown⟩] :=
  ⟨_, _, _, Reachable.run .init (as := exStopSched) rfl, rfl, rfl, rfl, rfl, rfl, rfl, rfl⟩

/-- The mailbox goes between the two steps of `join`: the handle waits and has yet to be told. Or before: it is ready. Meets the hypotheses of
`C23_created_concurrent`, in its three alternatives. -/
example : ∃ s1 s2 s3 s2' s3' s4, (init none).step (.call (.join 0)) = some s1 ∧ s1.step (.exec 0) = some s2 ∧
    s1.run [.exec 0, .call (.dropMailbox 1), .exec 1] = some s3 ∧ s3.step (.exec 0) = some s4 ∧ s4.w.objs[2]? = some (.join (some 0)) ∧
    s4.w.rcv = 0 ∧ s4.th[1]? = some [.shutTx, .dropBq 0] ∧
    s1.run [.call (.dropMailbox 1), .exec 1] = some s2' ∧ s2'.step (.exec 0) = some s3' ∧ s3'.w.objs[2]? = some (.join none) :=
  ⟨_, _, _, _, _, _, rfl, rfl, rfl, rfl, rfl, rfl, rfl, rfl, rfl, rfl⟩

def exRaceAll : List Act :=
  exLenSched ++ [.call (.broadcast 0), .call (.broadcast 0), .call (.pollSend 4 0), .call (.pollSend 5 0), .exec 5, .exec 5, .exec 6, .exec 6]

/-- Two broadcasts race for the second places in two mailboxes. Meets the hypotheses of `C30_concurrent_partial`. -/
example : ∃ s, Reachable (some 2) s ∧ (∀ b, b < s.w.bq.length → s.w.mailboxLive b) ∧ s.w.items 0 = [⟨0, .valued 0⟩] ∧
    s.w.items 1 = [⟨0, .valued 0⟩] ∧ s.th[5]? = some [.sendCrit 4 .bcast ⟨1, .valued 0⟩ .strong 0] ∧
    s.th[6]? = some [.sendCrit 5 .bcast ⟨2, .valued 0⟩ .strong 0] := by
  have key : ∀ s, (init (some 2)).run exRaceAll = some s → s.w.bq.length = 2 ∧ .mailbox 0 ∈ s.w.objs ∧ .mailbox 1 ∈ s.w.objs ∧
      s.w.items 0 = [⟨0, .valued 0⟩] ∧ s.w.items 1 = [⟨0, .valued 0⟩] ∧ s.th[5]? = some [.sendCrit 4 .bcast ⟨1, .valued 0⟩ .strong 0] ∧
      s.th[6]? = some [.sendCrit 5 .bcast ⟨2, .valued 0⟩ .strong 0] := by
    intro s h
    have h' : (init (some 2)).run exRaceAll = some _ := rfl
    rw [h'] at h; simp only [Option.some.injEq] at h; subst h
    decide
  obtain ⟨s, hs⟩ : ∃ s, (init (some 2)).run exRaceAll = some s := ⟨_, rfl⟩
  obtain ⟨h1, h2, h3, h4⟩ := key s hs
  refine ⟨s, Reachable.run .init hs, fun b hb => ?_, h4⟩
  rw [h1] at hb
  have : b = 0 ∨ b = 1 := by omega
  rcases this with rfl | rfl
  · exact ⟨_, h2, rfl⟩
  · exact ⟨_, h3, rfl⟩
end Xtra
