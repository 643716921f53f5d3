import Verif.WsId
/-! # C08: parked senders are admitted by priority and never forgotten -/

set_option linter.unusedSimpArgs false

namespace Xtra

/-- **C08.** A polled send future that has not resolved is always in exactly one of these situations: parked
with its own message, admitted, or failed. -/
theorem C08_parked_states {cap : Option Nat} {s : Sys} (h : Reachable cap s) {f mid k : Nat} {md : Mode}
    (ho : s.w.objs[f]? = some (.send md mid (.waiting k))) :
    (∃ m, m.id = mid ∧ s.w.parkedSend f md m) ∨ s.w.admittedSend f md mid ∨ s.w.failedSend f md mid := by
  obtain ⟨⟨x, hx, hg⟩, -⟩ := owns_ws (own_reachable h) ho
  cases x with
  | active wk m =>
    have := (wsId_reachable h).obj ho hx
    exact .inl ⟨m, this, k, wk, by rw [this]; exact ho, hx⟩
  | delivered wk => exact .inr (.inl ⟨k, wk, ho, hx⟩)
  | closed wk => exact .inr (.inr ⟨k, wk, ho, hx⟩)
  | gone => exact absurd rfl hg

/-- **C08.** In every reachable state, whatever is going on concurrently: while a unicast send is parked the
queue is at or above capacity. -/
theorem C08_parked_only_when_full {cap : Option Nat} {s : Sys} (h : Reachable cap s) {f : Nat} {md : Mode} {m : Msg}
    (hmd : md ≠ .bcast) (hp : s.w.parkedSend f md m) : ∃ c, cap = some c ∧ c ≤ s.w.uq.length := by
  obtain ⟨k, wk, h1, h2⟩ := hp
  have := (uInv_reachable h).parked ((parked_reg h h1 h2).1 hmd) h2
  have hc := cap_reachable h
  unfold World.uniFull at this
  rw [hc] at this
  cases cap with
  | none => simp at this
  | some c => exact ⟨c, rfl, by simpa using this⟩

/-- The hypotheses of the two theorems above are met by a parked send on a bounded(1) mailbox.
Meets the hypotheses of `C08_parked_states`, `C08_parked_only_when_full`. -/
example : ∃ s, Reachable (some 1) s ∧ s.w.parkedSend 3 .ret ⟨1, .valued 0⟩ ∧ s.w.uq.length = 1 :=
  ⟨_, Reachable.run .init (as := exParkSched ++ [.call (.pollSend 3 7), .exec 3, .exec 3, .exec 3, .exec 3, .exec 3]) rfl,
    ⟨0, some 7, rfl, rfl⟩, rfl⟩

theorem shutTx_now {cap : Option Nat} {s : Sys} (h : Reachable cap s) {t : Nat} {rest : List Micro}
    (ht : s.th[t]? = some (.shutTx :: rest)) : s.w.rcv = 0 := by
  refine shutTx_pending h ?_
  have := tot_head mShutTx ht
  simp [mShutTx] at this; omega

/-- **C08.** Never forgotten: one step of anything, anywhere. A parked send is still parked afterwards with the
same message; or it was admitted and its message is in the queue (unicast) or was accepted (broadcast); or it
failed, which only happens when the last mailbox is gone; unless the step was the start of a poll, a drop or
a late `priority` call on that very future by its owner. -/
theorem C08_never_forgotten {cap : Option Nat} {s s' : Sys} {a : Act} (h : Reachable cap s) {f : Nat} {md : Mode} {m : Msg}
    (hp : s.w.parkedSend f md m) (hs : s.step a = some s') :
    (∃ md', s'.w.parkedSend f md' m) ∨
    (md ≠ .bcast ∧ s'.w.admittedSend f md m.id ∧ m ∈ s'.w.uq) ∨
    (md = .bcast ∧ s'.w.admittedSend f md m.id ∧ ∃ ts, .bsent m ts ∈ s'.w.log) ∨
    (s'.w.failedSend f md m.id ∧ s'.w.rcv = 0 ∧ .dropped m.id ∈ s'.w.log) ∨
    ((∃ wk, a = .call (.pollSend f wk)) ∨ a = .call (.dropSend f) ∨ ∃ p, a = .call (.setPrio f p)) := by
  obtain ⟨k, wk, h1, h2⟩ := hp
  have hreg := regWs_reachable h
  rcases step_rel hs with ⟨c, w', ms, rfl, hc, rfl⟩ | ⟨t, mc, rest, w', ms, rfl, ht, he, rfl⟩
  · have hws := callR_wsEq hc
    by_cases hf : c.target = some f
    · have hl := (List.getElem?_eq_some_iff.mp h1).1
      cases hc
      case detach f' mid st hh =>
        simp only [Call.target, Option.some.injEq] at hf; subst hf
        rw [h1] at hh; simp at hh; obtain ⟨rfl, rfl, rfl⟩ := hh
        left; exact ⟨.detached, k, wk, by simp [World.setObj, hl], h2⟩
      case flipLag => simp [Call.target] at hf
      case setPrio_waiting => simp only [Call.target, Option.some.injEq] at hf; subst hf; exact .inr (.inr (.inr (.inr (.inr (.inr ⟨_, rfl⟩)))))
      case pollSend_waiting => simp only [Call.target, Option.some.injEq] at hf; subst hf; exact .inr (.inr (.inr (.inr (.inl ⟨_, rfl⟩))))
      case dropSend_waiting => simp only [Call.target, Option.some.injEq] at hf; subst hf; exact .inr (.inr (.inr (.inr (.inr (.inl rfl)))))
      case cloneMailbox hh hb => simp only [Call.target, Option.some.injEq] at hf; subst hf; rw [h1] at hh; simp at hh; subst hh; simp [Obj.mbox] at hb
      case address hh hb => simp only [Call.target, Option.some.injEq] at hf; subst hf; rw [h1] at hh; simp at hh; subst hh; simp [Obj.mbox] at hb
      case next hh hb => simp only [Call.target, Option.some.injEq] at hf; subst hf; rw [h1] at hh; simp at hh; subst hh; simp [Obj.mbox] at hb
      all_goals
        exfalso
        simp only [Call.target, Option.some.injEq] at hf
        subst hf
        simp_all
    · exact .inl ⟨md, k, wk, callR_keeps hc hf h1, by rw [hws]; exact h2⟩
  · have hown := owns_ws (own_reachable h) h1
    have hmw := hown.2 ht
    have hsl : mc.slot ≠ some f := fun hh => by
      have := slot_busy (wf_reachable h ht) hh
      rw [h1] at this; simp at this
    have ho' : w'.objs[f]? = some (.send md m.id (.waiting k)) := execR_keeps he hsl h1
    have hreg2 := parked_reg h h1 h2
    have hnd := List.nodup_append.mp hreg.nodup
    rcases execR_evo he hreg h2 with h3 | ⟨a, m', f', md', mid, b, h3, rfl, h4⟩ | ⟨a, m', h3, h4, h5⟩ | ⟨a, m', h3, h4, rfl, h5⟩ |
      ⟨h3, ⟨f', md', mid, wk', rfl, -⟩ | ⟨rfl, -⟩⟩
    · exact .inl ⟨md, k, wk, ho', h3⟩
    · simp [mWs, is1] at hmw
    · simp at h3; obtain ⟨rfl, rfl⟩ := h3
      rcases h5 with ⟨h5, h6⟩ | ⟨h5, h6⟩
      · refine .inr (.inl ⟨?_, ⟨k, wk, ho', h4⟩, h6⟩)
        rintro rfl
        exact hnd.2.2 _ h5 _ (hreg2.2 rfl) rfl
      · by_cases hmd : md = .bcast
        · exact .inr (.inr (.inl ⟨hmd, ⟨k, wk, ho', h4⟩, h6⟩))
        · exact absurd rfl (hnd.2.2 _ (hreg2.1 hmd) _ h5)
    · simp at h3; obtain ⟨rfl, rfl⟩ := h3
      refine .inr (.inr (.inr (.inl ⟨⟨k, wk, ho', h4⟩, ?_, h5⟩)))
      have hz := shutTx_now h ht
      cases he; simpa using hz
    · simp [mWs, is1] at hmw
    · simp [mWs, is1] at hmw

/-- A parked send whose message the channel then takes over. Meets the hypotheses of `C08_never_forgotten`. -/
example : ∃ s s', Reachable (some 1) s ∧ s.w.parkedSend 3 .ret ⟨1, .valued 0⟩ ∧ s.step (.exec 5) = some s' ∧
    s'.w.admittedSend 3 .ret 1 ∧ (⟨1, .valued 0⟩ : Msg) ∈ s'.w.uq :=
  ⟨_, _, Reachable.run .init (as := exParkSched ++
      [.call (.pollSend 3 7), .exec 3, .exec 3, .exec 3, .exec 3, .exec 3, .call (.next 1), .call (.pollRecv 4 0)]) rfl,
    ⟨0, some 7, rfl, rfl⟩, rfl, ⟨0, some 7, rfl, rfl⟩, by decide⟩

/-- **C08**, whatever else is going on: the atomic step in which a receive takes a unicast message `m` and frees
space (at most `c` were queued) while somebody is parked. One of the parked senders, of maximal priority among all
that are live, is admitted: its message joins the queue, its future is notified, and all others stay as they are. -/
theorem C08_admits_highest_concurrent {c : Nat} {s s' : Sys} {t r b wk : Nat} {m : Msg} {rest : List Micro}
    (h : Reachable (some c) s) (ht : s.th[t]? = some (.recvTry r b wk :: rest)) (hs : s.step (.exec t) = some s')
    (hy : s'.w.log = .recv r b (.one m) :: s.w.log) (hlen : s.w.uq.length ≤ c)
    (hp : ∃ h0 ∈ s.w.wOne, ∃ wk0 m0, s.w.ws[h0]? = some (.active wk0 m0)) :
    ∃ h ∈ s.w.wOne, ∃ wk m1, s.w.ws[h]? = some (.active wk m1) ∧
      (∀ h' ∈ s.w.wOne, ∀ wk' m', s.w.ws[h']? = some (.active wk' m') → m'.prio ≤ m1.prio) ∧
      s'.w.ws[h]? = some (.delivered wk) ∧ (∀ h', h' ≠ h → s'.w.ws[h']? = s.w.ws[h']?) ∧
      (m :: s'.w.uq).Perm (m1 :: s.w.uq) := by
  obtain ⟨h0, hm, wk0, m0, hc⟩ := hp
  have he := exec_rel s.w (.recvTry r b wk)
  simp only [Sys.step, ht] at hs
  simp at hs; subst hs
  simp only at hy ⊢
  generalize (exec s.w (.recvTry r b wk)).1 = w' at *
  generalize (exec s.w (.recvTry r b wk)).2 = ms at *
  have hne : w'.log ≠ s.w.log := by rw [hy]; simp
  have hreg := regWs_reachable h
  cases he with
  | recv_all hp _ _ =>
    simp [World.yieldMsg, World.ev] at hy
  | recv_shutdown => simp [World.yieldMsg, World.ev] at hy
  | recv_wait => simp at hne
  | recv_one hp h1 h2 =>
    simp [World.yieldMsg, World.ev] at hy; obtain ⟨rfl, -⟩ := hy
    obtain ⟨q, hq, ⟨hf, rfl⟩ | ⟨-, hg, rfl⟩ | ⟨-, h, wk, m1, q', t, rfl⟩⟩ := popUnicast_cases hreg.one hp
    · have := pop_length hq
      have hcp := cap_reachable h
      simp [World.uniFull, hcp] at hf; omega
    · rw [hg h0 hm] at hc; simp at hc
    · have hl := (List.getElem?_eq_some_iff.mp t.cell).1
      refine ⟨h, t.mem, wk, m1, t.cell, fun h' hh wk' m' hc' => t.max h' hh wk' m' hc', by simp [hl], ?_, ?_⟩
      · intro h' hne; simp [List.getElem?_set_ne (Ne.symm hne)]
      · have p1 := Heap.push_perm Msg.le q m1
        have p2 := Heap.pop_perm hq
        exact ((p1.cons _).trans (List.Perm.swap ..)).trans (p2.symm.cons _)

/-- Every live parked-sender cell belongs to a waiting send future when no call is in progress. -/
theorem Quiet.wsOwner {cap : Option Nat} {w : World} (hq : Quiet cap w) {h : Nat} (hl : wsActive w.ws h = true) :
    ∃ (f mid : Nat) (md : Mode), w.objs[f]? = some (.send md mid (.waiting h)) := by
  have h1 := (hq.own h).1
  rw [show wsL w.ws h = 1 by simp [wsL, hl]] at h1
  obtain ⟨o, ho, hp⟩ := (sumBy_pos _).mp (by omega : 0 < sumBy (oWs h) w.objs)
  obtain ⟨r, hr⟩ := List.getElem?_of_mem ho
  cases o with
  | send md mid s =>
    cases s with
    | waiting c' =>
      have : c' = h := by
        by_cases hcc : c' = h
        · exact hcc
        · simp [oWs, sWs, is1, hcc] at hp
      subst this
      exact ⟨r, mid, md, hr⟩
    | _ => simp [oWs, sWs] at hp
  | _ => simp [oWs] at hp

/-- **C08.** A fresh receive (no other call in progress) yields the unicast message `m` and thereby frees space
while unicast sends are parked: then a parked send future of maximal priority among all parked ones is
admitted, its message replaces `m` in the queue, and every other parked send stays parked. -/
theorem C08_admits_highest {c : Nat} {w w' : World} {r b wk : Nat} {m : Msg} (hq : Quiet (some c) w)
    (hr : w.objs[r]? = some (.recv b .new)) (hd : Does w (.pollRecv r wk) w') (hy : w'.yielded r b (.one m))
    (hlen : w.uq.length ≤ c) (hp : ∃ f md m, md ≠ .bcast ∧ w.parkedSend f md m) :
    ∃ f md m1, md ≠ .bcast ∧ w.parkedSend f md m1 ∧
      (∀ f' md' m', md' ≠ .bcast → w.parkedSend f' md' m' → m'.prio ≤ m1.prio) ∧
      w'.admittedSend f md m1.id ∧ (m :: w'.uq).Perm (m1 :: w.uq) ∧
      ∀ f' md' m', f' ≠ f → w.parkedSend f' md' m' → w'.parkedSend f' md' m' := by
  obtain ⟨f0, md0, m0, hmd0, k0, wk0, ho0, hc0⟩ := hp
  obtain ⟨th, hre, hth⟩ := id hq
  have hreg := regWs_reachable hre
  have hm0 := (parked_reg hre ho0 hc0).1 hmd0
  have hcp := cap_reachable hre
  obtain ⟨w1, ms, hc, hm⟩ := hd
  have hcall := hc
  simp only [Xtra.call, hr] at hc
  simp at hc; obtain ⟨rfl, rfl⟩ := hc
  obtain ⟨w2, ns, he, hs2, hr2⟩ := (hq.call hcall).exec hm
  cases he with
  | recv_all hp h1 h2 => have := runs_nil hr2; subst this; simp [World.yielded, World.yieldMsg, World.ev] at hy
  | recv_shutdown => have := runs_nil hr2; subst this; simp [World.yielded, World.yieldMsg, World.ev] at hy
  | recv_wait =>
    obtain ⟨w3, ns3, he3, hs3, hr3⟩ := hs2.exec hr2
    cases he3 with
    | recvPoll_empty => have := runs_nil hr3; subst this; simp [World.yielded, World.ev] at hy
    | recvPoll_one h => simp at h
    | recvPoll_shutdown h => simp at h
    | recvPoll_bcast h => simp at h
    | recvPoll_panic h => simp at h
  | recv_one hp h1 h2 =>
    have := runs_nil hr2; subst this
    obtain ⟨hy1, hy2⟩ := hy
    simp [World.yieldMsg, World.ev] at hy2
    rename_i mm w3
    have : mm = m := hy2
    subst this
    obtain ⟨q, hq', ⟨hf, rfl⟩ | ⟨-, hg, rfl⟩ | ⟨-, h, wk1, m1, q', t, rfl⟩⟩ := popUnicast_cases (w := w.setObj r .busy) hreg.one hp
    · have := pop_length (l := w.uq) hq'
      have hf' := (uniFull_some (c := c) (by exact hcp)).symm.trans hf
      simp at hf'; omega
    · have := hg k0 hm0; simp at this; rw [this] at hc0; simp at hc0
    · have hcell : w.ws[h]? = some (.active wk1 m1) := t.cell
      have hmem : h ∈ w.wOne := t.mem
      have hl := (List.getElem?_eq_some_iff.mp hcell).1
      obtain ⟨f, mid, md, hfo⟩ := hq.wsOwner (h := h) (by simp [wsActive, hcell])
      have hid := (wsId_reachable hre).obj hfo hcell
      subst hid
      have keep : ∀ {g : Nat} {o : Obj} {md : Mode} {mid k : Nat}, w.objs[g]? = some (.send md mid (.waiting k)) →
          ((w.objs.set r .busy).set r (.message b (.one mm)))[g]? = some (.send md mid (.waiting k)) := by
        intro g o md mid k hg
        have : r ≠ g := by rintro rfl; rw [hr] at hg; simp at hg
        simp [List.getElem?_set_ne this, hg]
      refine ⟨f, md, m1, ?_, ⟨h, wk1, hfo, hcell⟩, ?_, ⟨h, wk1, keep (o := .gone) hfo, by simp [World.yieldMsg, World.ev, hl]⟩, ?_, ?_⟩
      · rintro rfl
        have := (parked_reg hre hfo hcell).2 rfl
        exact (List.nodup_append.mp hreg.nodup).2.2 _ hmem _ this rfl
      · rintro f' md' m' hmd' ⟨k', wk', ho', hc'⟩
        exact t.max k' ((parked_reg hre ho' hc').1 hmd') wk' m' hc'
      · have p1 := Heap.push_perm Msg.le q m1
        have p2 := Heap.pop_perm (l := w.uq) hq'
        exact ((p1.cons _).trans (List.Perm.swap ..)).trans (p2.symm.cons _)
      · rintro f' md' m' hne ⟨k', wk', ho', hc'⟩
        refine ⟨k', wk', keep (o := .gone) ho', ?_⟩
        have : h ≠ k' := by
          rintro rfl
          have a := two_le (oWs h) hne ho' hfo
          have b := (hq.own h).1
          have c := wsL_le w.ws h
          simp [oWs, sWs, is1] at a; omega
        simp [World.yieldMsg, World.ev, List.getElem?_set_ne this, hc']

/-- The parked sender with the higher priority is admitted: capacity 1, messages of priorities 0 (queued), 3 and 5
(parked). -/
def exAdmitSched : List Act :=
  [.call (.send 0), .call (.send 0), .call (.setPrio 3 5), .call (.send 0), .call (.setPrio 4 3),
   .call (.pollSend 2 0), .exec 5, .exec 5, .exec 5, .exec 5, .exec 5,
   .call (.pollSend 3 1), .exec 6, .exec 6, .exec 6, .exec 6, .exec 6,
   .call (.pollSend 4 2), .exec 7, .exec 7, .exec 7, .exec 7, .exec 7, .call (.next 1)]

/-- Meets the hypotheses of `C08_admits_highest`. -/
example : ∃ w w', Quiet (some 1) w ∧ w.objs[5]? = some (.recv 0 .new) ∧ Does w (.pollRecv 5 9) w' ∧
    w'.yielded 5 0 (.one ⟨0, .valued 0⟩) ∧ w.uq.length ≤ 1 ∧ w.parkedSend 3 .ret ⟨1, .valued 5⟩ ∧
    w.parkedSend 4 .ret ⟨2, .valued 3⟩ ∧ w'.admittedSend 3 .ret 1 ∧ w'.parkedSend 4 .ret ⟨2, .valued 3⟩ := by
  refine ⟨_, _, ⟨_, Reachable.run .init (as := exAdmitSched) rfl, by decide⟩, rfl, ⟨_, _, rfl, .cons .nil⟩, ⟨rfl, rfl⟩,
    by decide, ⟨0, some 1, rfl, rfl⟩, ⟨1, some 2, rfl, rfl⟩, ⟨0, some 1, rfl, rfl⟩, ⟨1, some 2, rfl, rfl⟩⟩

/-- **C08.** Polling a parked send that has been admitted completes the queueing stage: a detached send or a
broadcast resolves to `Ok`; a plain send goes on to await its reply, or resolves with it if it is there. -/
theorem C08_admitted_completes {w w' : World} {f mid wk : Nat} {md : Mode} (ha : w.admittedSend f md mid)
    (hd : Does w (.pollSend f wk) w') :
    match md with
    | .bcast => w'.log.head? = some (.sendOk f mid) ∧ w'.objs[f]? = some .gone
    | .detached => w'.log.head? = some (.sendOk f mid) ∧ w'.objs[f]? = some (.reply mid)
    | .ret => (∀ x, w.resp[mid]? = some (.waiting x) →
        w'.objs[f]? = some (.send .ret mid .done) ∧ w'.log.head? = some (.sendPending f mid wk)) ∧
      (∀ x r, w.resp[mid]? = some (.value r x) → w'.objs[f]? = some .gone ∧ w'.log.head? = some (.replyOk f mid r)) ∧
      (∀ x, w.resp[mid]? = some (.interrupted x) → w'.objs[f]? = some .gone ∧ w'.log.head? = some (.replyInt f mid)) := by
  obtain ⟨h, wk0, ho, hc⟩ := ha
  have hl := (List.getElem?_eq_some_iff.mp ho).1
  obtain ⟨w1, ms, hcl, hm⟩ := hd
  simp only [Xtra.call, ho] at hcl
  simp at hcl; obtain ⟨rfl, rfl⟩ := hcl
  cases hm with
  | cons hm =>
    simp only [exec, World.setObj, hc] at hm
    cases hm with
    | cons hm =>
      cases md with
      | bcast => simp only [exec] at hm; cases hm; simp [World.setObj, World.ev, hl]
      | detached => simp only [exec] at hm; cases hm; simp [World.setObj, World.ev, hl]
      | ret =>
        simp only [exec] at hm
        refine ⟨fun x hx => ?_, fun x r hx => ?_, fun x hx => ?_⟩ <;> simp only [hx] at hm <;> cases hm <;>
          simp [World.setObj, World.ev, hl]

/-- **C08.** Polling a send that is still parked leaves it parked with the same message, and changes nothing else in
the channel. -/
theorem C08_poll_parked {w w' : World} {f wk : Nat} {md : Mode} {m : Msg} (hp : w.parkedSend f md m)
    (hd : Does w (.pollSend f wk) w') : w'.parkedSend f md m ∧ w'.uq = w.uq ∧ w'.bq = w.bq ∧
      w'.log = .sendPending f m.id wk :: w.log := by
  obtain ⟨h, wk0, ho, hc⟩ := hp
  have hl := (List.getElem?_eq_some_iff.mp ho).1
  have hl2 := (List.getElem?_eq_some_iff.mp hc).1
  obtain ⟨w1, ms, hcl, hm⟩ := hd
  simp only [Xtra.call, ho] at hcl
  simp at hcl; obtain ⟨rfl, rfl⟩ := hcl
  cases hm with
  | cons hm =>
    simp only [exec, World.setObj, hc] at hm
    cases hm
    exact ⟨⟨h, some wk, by simp [World.ev, hl], by simp [World.ev, hl2]⟩, rfl, rfl, rfl⟩

/-- Both polls occur: after the receive above, object 3 completes and object 4 stays parked.
Meets the hypotheses of `C08_admitted_completes`, `C08_poll_parked`. -/
example : ∃ w w1 w2, Quiet (some 1) w ∧ w.admittedSend 3 .ret 1 ∧ w.parkedSend 4 .ret ⟨2, .valued 3⟩ ∧
    Does w (.pollSend 3 9) w1 ∧ w1.objs[3]? = some (.send .ret 1 .done) ∧ Does w (.pollSend 4 9) w2 ∧
    w2.parkedSend 4 .ret ⟨2, .valued 3⟩ := by
  refine ⟨_, _, _, ⟨_, Reachable.run .init (as := exAdmitSched ++ [.call (.pollRecv 5 9), .exec 9]) rfl, by decide⟩,
    ⟨0, some 1, rfl, rfl⟩, ⟨1, some 2, rfl, rfl⟩, ⟨_, _, rfl, .cons (.cons .nil)⟩, rfl, ⟨_, _, rfl, .cons .nil⟩,
    ⟨1, some 9, rfl, rfl⟩⟩

/-- The critical section of the receive of `exAdmitSched`, with the sender about to poll again in between. Meets the hypotheses of
`C08_admits_highest_concurrent`. -/
example : ∃ s s', Reachable (some 1) s ∧ s.th[9]? = some [.recvTry 5 0 9] ∧ s.step (.exec 9) = some s' ∧
    s'.w.log = .recv 5 0 (.one ⟨0, .valued 0⟩) :: s.w.log ∧ s.w.uq.length ≤ 1 ∧
    0 ∈ s.w.wOne ∧ s.w.ws[0]? = some (.active (some 1) ⟨1, .valued 5⟩) ∧ s.th[10]? = some [.pollWs 4 .ret 2 1 2] :=
  ⟨_, _, Reachable.run .init (as := exAdmitSched ++ [.call (.pollRecv 5 9), .call (.pollSend 4 2)]) rfl, rfl, rfl, rfl, by decide,
    by decide, rfl, rfl⟩

end Xtra
