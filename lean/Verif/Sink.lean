import Verif.PropsCount
import Verif.PropsCancel
import Verif.PropsSend2
/-!
# `into_sink` (C32)

`Address::into_sink` and `MessageChannel::into_sink` (`xtra/src/address.rs:239-245`, `xtra/src/message_channel.rs:157-159`) are
`futures_util::sink::unfold((), |(), m| self.send(m))`. The state machine of `sink::unfold` (futures-util 0.3, not part of this
repository) is modelled here on top of the channel model:

* `start_send(item)` in state `Value` calls the closure and stores the future; in the other states it panics;
* `poll_ready`, `poll_flush` and `poll_close` poll the stored future, if any; `Ok` leads to `Value`, `Err` to `Empty`.

Everything else in the channel goes on concurrently. The sink owns the address `i` and the futures it made, so nobody else polls,
drops, detaches or re-prioritises those futures.
-/

namespace Xtra

/-- `UnfoldState`: `Value`, `Future`, `Empty` (after an error, or dropped). -/
inductive SinkSt where
  | value
  | future (f mid : Nat)
  | empty
  deriving DecidableEq, Repr

/-- A sink in a running system; `fed` lists the futures and messages of the items fed so far, newest first. -/
structure SinkCfg where
  s : Sys
  st : SinkSt
  fed : List (Nat × Nat)

/-- The action uses the send future `f`. -/
def Act.touchesSend (f : Nat) : Act → Bool
  | .call (.setPrio g _) => g == f
  | .call (.detach g) => g == f
  | .call (.pollSend g _) => g == f
  | .call (.dropSend g) => g == f
  | _ => false

/-- One step of a system with a sink made of the address `i`. -/
inductive SinkStep (i : Nat) : SinkCfg → SinkCfg → Prop where
  /-- anything else that happens -/
  | other {c : SinkCfg} {a : Act} {s' : Sys} : (∀ x ∈ c.fed, a.touchesSend x.1 = false) → c.s.step a = some s' →
      SinkStep i c { c with s := s' }
  /-- `start_send`: the closure calls `self.send(message)` (address.rs:244) -/
  | startSend {c : SinkCfg} {s' : Sys} : c.st = .value → c.s.step (.call (.send i)) = some s' →
      SinkStep i c ⟨s', .future c.s.w.objs.length c.s.w.resp.length, (c.s.w.objs.length, c.s.w.resp.length) :: c.fed⟩
  /-- `poll_ready`/`poll_flush`/`poll_close` start polling the stored future -/
  | poll {c : SinkCfg} {f mid wk : Nat} {s' : Sys} : c.st = .future f mid → c.s.step (.call (.pollSend f wk)) = some s' →
      SinkStep i c { c with s := s' }
  /-- the poll returned `Ready(Ok(()))` -/
  | ok {c : SinkCfg} {f mid r : Nat} : c.st = .future f mid → .replyOk f mid r ∈ c.s.w.log → SinkStep i c { c with st := .value }
  /-- the poll returned `Ready(Err(_))` -/
  | err {c : SinkCfg} {f mid : Nat} : c.st = .future f mid → (.replyInt f mid ∈ c.s.w.log ∨ .sendErr f mid ∈ c.s.w.log) →
      SinkStep i c { c with st := .empty }
  /-- the sink is dropped while an item is in flight -/
  | drop {c : SinkCfg} {f mid : Nat} {s' : Sys} : c.st = .future f mid → c.s.step (.call (.dropSend f)) = some s' →
      SinkStep i c { c with s := s', st := .empty }

/-- The sink was made in some reachable state, and then anything happened. -/
inductive SinkRun (cap : Option Nat) (i : Nat) : SinkCfg → Prop where
  | new {s : Sys} {rc : Rc} : Reachable cap s → s.w.objs[i]? = some (.addr rc) → SinkRun cap i ⟨s, .value, []⟩
  | step {c c' : SinkCfg} : SinkRun cap i c → SinkStep i c c' → SinkRun cap i c'

theorem SinkRun.reachable {cap : Option Nat} {i : Nat} {c : SinkCfg} (h : SinkRun cap i c) : Reachable cap c.s := by
  induction h with
  | new h _ => exact h
  | step _ hs ih =>
    cases hs with
    | other _ hs => exact .step ih hs
    | startSend _ hs => exact .step ih hs
    | poll _ hs => exact .step ih hs
    | ok _ _ => exact ih
    | err _ _ => exact ih
    | drop _ hs => exact .step ih hs

/-- Specification. Message `m` was fed after the handlers of all messages in `earlier` had completed, and before that nobody saw `m`
(the log is newest first: `post` is what had happened when `m` was fed). -/
def FedAfter (log : List Ev) (m : Nat) (earlier : List Nat) : Prop :=
  ∃ pre f post, log = pre ++ .made f m false :: post ∧ (∀ e ∈ earlier, ∃ r, .handled e r ∈ post) ∧
    (∀ r b p, .recv r b (.one ⟨m, p⟩) ∉ post) ∧ ∀ r, .handled m r ∉ post

theorem FedAfter.mono {log log' : List Ev} {m : Nat} {earlier : List Nat} (h : FedAfter log m earlier) (hs : log <:+ log') :
    FedAfter log' m earlier := by
  obtain ⟨pre, f, post, rfl, h1, h2, h3⟩ := h
  obtain ⟨x, rfl⟩ := hs
  exact ⟨x ++ pre, f, post, by simp, h1, h2, h3⟩

theorem fresh_mid {cap : Option Nat} {s : Sys} (h : Reachable cap s) :
    (∀ r b p, Ev.recv r b (.one ⟨s.w.resp.length, p⟩) ∉ s.w.log) ∧ ∀ r, Ev.handled s.w.resp.length r ∉ s.w.log := by
  obtain ⟨-, -, -, -, h5, -, h7⟩ := none_new h (Nat.le_refl s.w.resp.length)
  refine ⟨fun r b p hm => ?_, fun r hm => ?_⟩
  · have := not_of_sum h7 hm; simp [eRecv, amW, mid1, n1] at this
  · have := not_of_sum h5 hm; simp [eAll, n1] at this

structure SinkInv (c : SinkCfg) : Prop where
  fed : ∀ a x b, c.fed = a ++ x :: b → FedAfter c.s.w.log x.2 (b.map Prod.snd)
  mkd : ∀ x ∈ c.fed, .made x.1 x.2 false ∈ c.s.w.log
  cur : ∀ f mid, c.st = .future f mid → ∃ l, c.fed = (f, mid) :: l
  old : ∀ x ∈ c.fed.tail, ∃ r, .handled x.2 r ∈ c.s.w.log
  ready : c.st = .value → ∀ x ∈ c.fed, ∃ r, .handled x.2 r ∈ c.s.w.log
  noPrio : ∀ x ∈ c.fed, ∀ p, .prioSet x.2 p ∉ c.s.w.log

/-- Weight of `prioSet` events. -/
def ePrio (i : Nat) : Ev → Nat
  | .prioSet j _ => n1 i j
  | _ => 0

theorem execR_ePrio {w w' : World} {m : Micro} {ms : List Micro} (h : ExecR w m w' ms) (r : RegWs w.ws w.wOne w.wAll) (i : Nat) :
    sumBy (ePrio i) w'.log = sumBy (ePrio i) w.log := by
  have kl := lateLog_sum (ePrio i) (fun _ => rfl) w
  cases h
  case shutTx => simp [shutTx_drops (ePrio i) (fun _ => rfl)]
  case recv_all hp _ _ => simp [popBroadcast_ev (ePrio i) (by intros; rfl) r hp, ePrio]
  case recvBcast_some hp => simp [popBroadcast_ev (ePrio i) (by intros; rfl) r hp, ePrio]
  case recv_one hp _ _ => simp [World.popUnicast_log hp, ePrio]
  case critAll_sent => simp [World.sendBroadcast, ePrio, kl]
  case bcastShutdown => simp [World.sendBroadcast, ePrio]
  all_goals simp [ePrio, kl]

theorem ePrio_mem {i p : Nat} {l : List Ev} (h : .prioSet i p ∈ l) : 0 < sumBy (ePrio i) l := by
  rcases Nat.eq_zero_or_pos (sumBy (ePrio i) l) with h0 | h0
  · have := not_of_sum h0 h; simp [ePrio, n1] at this
  · exact h0

theorem ePrio_zero {i : Nat} {l : List Ev} (h : ∀ p, .prioSet i p ∉ l) : sumBy (ePrio i) l = 0 := by
  induction l with
  | nil => rfl
  | cons e l ih =>
    have h1 := ih (fun p hp => h p (List.mem_cons_of_mem _ hp))
    simp [h1]
    cases e <;> simp [ePrio, n1]
    rintro rfl
    exact h _ List.mem_cons_self

/-- A `prioSet` event of a message comes from a call on the future made for it. -/
theorem noPrio_step {cap : Option Nat} {s s' : Sys} {a : Act} (h : Reachable cap s) (hs : s.step a = some s') {f mid : Nat} {bc : Bool}
    (hm : .made f mid bc ∈ s.w.log) (ha : ∀ p, a ≠ .call (.setPrio f p)) (hn : ∀ p, .prioSet mid p ∉ s.w.log) :
    ∀ p, .prioSet mid p ∉ s'.w.log := by
  suffices hz : sumBy (ePrio mid) s'.w.log = 0 by
    intro p hp; have := ePrio_mem hp; omega
  have h0 := ePrio_zero hn
  rcases step_rel hs with ⟨c, w', ms, rfl, hc, rfl⟩ | ⟨t, m, rest, w', ms, rfl, ht, he, rfl⟩
  · have k := kInv_reachable h
    cases hc
    case setPrio g p md mid' m rc ho =>
      have : mid ≠ mid' := by
        rintro rfl
        have hk : okO s.w.log g _ := k.kw.objs _ _ ho
        have := (k.uniq _ _ _ _ _ _ hm hk.1).1.mpr rfl
        exact ha p (by rw [this])
      simp [ePrio, n1, h0]
      grind
    all_goals simp [ePrio, h0]
  · have := execR_ePrio he (regWs_reachable h) mid
    simp only at *; omega

theorem sinkInv {cap : Option Nat} {i : Nat} {c : SinkCfg} (h : SinkRun cap i c) : SinkInv c := by
  induction h with
  | new h _ => exact ⟨by simp, by simp, by simp, by simp, by simp, by simp⟩
  | @step c c' hrun hs ih =>
    have hr := hrun.reachable
    -- a step of the channel that keeps the list of fed items
    have chan : ∀ {a : Act} {s' : Sys}, c.s.step a = some s' → (∀ x ∈ c.fed, ∀ p, a ≠ .call (.setPrio x.1 p)) →
        SinkInv { c with s := s' } := by
      intro a s' hs' ha
      have hsuf := step_suffix hr hs'
      refine ⟨fun a x b he => (ih.fed a x b he).mono hsuf, fun x hx => hsuf.mem (ih.mkd x hx), ih.cur, ?_, ?_, ?_⟩
      · intro x hx; obtain ⟨r, hx⟩ := ih.old x hx; exact ⟨r, hsuf.mem hx⟩
      · intro hv x hx; obtain ⟨r, hx⟩ := ih.ready hv x hx; exact ⟨r, hsuf.mem hx⟩
      · intro x hx; exact noPrio_step hr hs' (ih.mkd x hx) (ha x hx) (ih.noPrio x hx)
    cases hs with
    | other ha hs' =>
      refine chan hs' ?_
      rintro x hx p rfl
      have := ha x hx
      simp [Act.touchesSend] at this
    | poll _ hs' => exact chan hs' (by simp)
    | ok hst hlog =>
      refine ⟨ih.fed, ih.mkd, by simp, ih.old, ?_, ih.noPrio⟩
      intro _ x hx
      obtain ⟨l, hl⟩ := ih.cur _ _ hst
      have hold := ih.old
      simp only at hx
      rw [hl] at hx hold
      rcases List.mem_cons.mp hx with rfl | hx
      · exact ⟨_, ((C18_replies hr).1 _ _ _ hlog).2.1⟩
      · exact hold x hx
    | err hst _ => exact ⟨ih.fed, ih.mkd, by simp, ih.old, by simp, ih.noPrio⟩
    | drop hst hs' =>
      have := chan hs' (by simp)
      exact ⟨this.fed, this.mkd, by simp, this.old, by simp, this.noPrio⟩
    | @startSend s' hst hs' =>
      have hsuf := step_suffix hr hs'
      have hlog : s'.w.log = .made c.s.w.objs.length c.s.w.resp.length false :: c.s.w.log := by
        rcases step_rel hs' with ⟨cc, w', ms, he, hc, rfl⟩ | ⟨t, m, rest, w', ms, he, -⟩
        · cases he
          cases hc
          rfl
        · simp at he
      have hall := ih.ready hst
      refine ⟨?_, ?_, ?_, ?_, by simp, ?_⟩
      · intro a x b he
        cases a with
        | nil =>
          simp only [List.nil_append, List.cons.injEq] at he
          obtain ⟨rfl, rfl⟩ := he
          refine ⟨[], c.s.w.objs.length, c.s.w.log, by simp [hlog], ?_, fresh_mid hr⟩
          intro e he
          obtain ⟨x, hx, rfl⟩ := List.mem_map.mp he
          exact hall x hx
        | cons y a =>
          simp only [List.cons_append, List.cons.injEq] at he
          exact (ih.fed a x b he.2).mono hsuf
      · intro x hx
        rcases List.mem_cons.mp hx with rfl | hx
        · simp [hlog]
        · exact hsuf.mem (ih.mkd x hx)
      · intro f mid he
        simp only [SinkSt.future.injEq] at he
        obtain ⟨rfl, rfl⟩ := he
        exact ⟨c.fed, rfl⟩
      · intro x hx
        obtain ⟨r, h⟩ := hall x (by simpa using hx)
        exact ⟨r, hsuf.mem h⟩
      · intro x hx p hp
        simp only [hlog, List.mem_cons, reduceCtorEq, false_or] at hp
        rcases List.mem_cons.mp hx with rfl | hx
        · obtain ⟨f, bc, hm⟩ : ∃ f bc, Ev.made f c.s.w.resp.length bc ∈ c.s.w.log := (kInv_reachable hr).evs _ hp
          have := ((kInv_reachable hr).made _ _ _ hm).2.1
          omega
        · exact ih.noPrio x hx p hp

/-- **C32.** Every item fed into a sink is sent only after the handlers of all items fed before have completed. -/
theorem C32_fed_after {cap : Option Nat} {i : Nat} {c : SinkCfg} (h : SinkRun cap i c) {later earlier : List (Nat × Nat)} {f m : Nat}
    (he : c.fed = later ++ (f, m) :: earlier) : FedAfter c.s.w.log m (earlier.map Prod.snd) := (sinkInv h).fed _ _ _ he

theorem split_of_first {α : Type} {pre post a z : List α} {x e : α} (h : pre ++ x :: post = a ++ e :: z) (hn : e ∉ x :: post) :
    ∃ y, z = y ++ x :: post := by
  rcases List.append_eq_append_iff.mp h with ⟨b, rfl, hb⟩ | ⟨b, rfl, hb⟩
  · cases b with
    | nil => simp at hb; exact absurd (by rw [← hb.1]; simp) hn
    | cons y b => exfalso; apply hn; simp at hb; rw [hb.2, hb.1]; simp
  · cases b with
    | nil => simp at hb; exact absurd (by simp [hb.1]) hn
    | cons y b => simp at hb; exact ⟨b, hb.2⟩

/-- **C32.** Items are handled in feed order: whenever a receive future yields an item, the handlers of all items fed before it have
completed. -/
theorem C32_order {cap : Option Nat} {i : Nat} {c : SinkCfg} (h : SinkRun cap i c) {later earlier : List (Nat × Nat)} {f m : Nat}
    (he : c.fed = later ++ (f, m) :: earlier) {a z : List Ev} {r b : Nat} {p : Prio}
    (hl : c.s.w.log = a ++ .recv r b (.one ⟨m, p⟩) :: z) : ∀ e ∈ earlier, ∃ v, .handled e.2 v ∈ z := by
  obtain ⟨pre, g, post, h1, h2, h3, -⟩ := C32_fed_after h he
  rw [h1] at hl
  obtain ⟨y, rfl⟩ := split_of_first hl (by simp [h3])
  intro e hm
  obtain ⟨v, hv⟩ := h2 e.2 (List.mem_map.mpr ⟨e, hm, rfl⟩)
  exact ⟨v, by simp [hv]⟩

/-- **C32.** Handlers complete in feed order. -/
theorem C32_handled_order {cap : Option Nat} {i : Nat} {c : SinkCfg} (h : SinkRun cap i c) {later earlier : List (Nat × Nat)}
    {f m : Nat} (he : c.fed = later ++ (f, m) :: earlier) {a z : List Ev} {v : Nat}
    (hl : c.s.w.log = a ++ .handled m v :: z) : ∀ e ∈ earlier, ∃ v, .handled e.2 v ∈ z := by
  obtain ⟨pre, g, post, h1, h2, -, h3⟩ := C32_fed_after h he
  rw [h1] at hl
  obtain ⟨y, rfl⟩ := split_of_first hl (by simp [h3])
  intro e hm
  obtain ⟨v, hv⟩ := h2 e.2 (List.mem_map.mpr ⟨e, hm, rfl⟩)
  exact ⟨v, by simp [hv]⟩

/-- **C32.** At most one item is in flight: all items but the last one fed have been handled; when the sink is ready for the next,
all have. -/
theorem C32_one_in_flight {cap : Option Nat} {i : Nat} {c : SinkCfg} (h : SinkRun cap i c) :
    (∀ x ∈ c.fed.tail, ∃ r, .handled x.2 r ∈ c.s.w.log) ∧
    (c.st = .value → ∀ x ∈ c.fed, ∃ r, .handled x.2 r ∈ c.s.w.log) := ⟨(sinkInv h).old, (sinkInv h).ready⟩

/-- **C32.** Items have the default priority. -/
theorem C32_default_priority {cap : Option Nat} {i : Nat} {c : SinkCfg} (h : SinkRun cap i c) {x : Nat × Nat} (hx : x ∈ c.fed)
    {r b : Nat} {p : Prio} (hm : .recv r b (.one ⟨x.2, p⟩) ∈ c.s.w.log) : p = .valued 0 := by
  have h1 := (C19_priority_as_set h.reachable).2.2.2.1 _ _ _ hm
  simp only at h1
  rw [h1, prioOf_eq]
  have : ∀ l : List Ev, (∀ p, .prioSet x.2 p ∉ l) → lastPrio x.2 l = 0 := by
    intro l
    induction l with
    | nil => intro _; rfl
    | cons e l ih =>
      intro hn
      have := ih (fun p hp => hn p (List.mem_cons_of_mem _ hp))
      cases e with
      | prioSet j q =>
        have : j ≠ x.2 := by rintro rfl; exact hn _ List.mem_cons_self
        simp_all [lastPrio]
      | _ => simpa [lastPrio] using this
  rw [this _ ((sinkInv h).noPrio x hx)]

/-- **C32.** After an error nothing more is sent: the sink stays unusable. -/
theorem C32_error_final {i : Nat} {c c' : SinkCfg} (hs : SinkStep i c c') (he : c.st = .empty) : c'.st = .empty ∧ c'.fed = c.fed := by
  cases hs with
  | other _ _ => exact ⟨he, rfl⟩
  | startSend h _ => rw [he] at h; simp at h
  | poll h _ => exact ⟨he, rfl⟩
  | ok h _ => rw [he] at h; simp at h
  | err h _ => rw [he] at h; simp at h
  | drop h _ => rw [he] at h; simp at h

/-! ### Cases that meet the hypotheses -/

/-- Executable form of `SinkStep`, for examples. -/
inductive SinkAct where
  | other (a : Act)
  | start
  | poll (wk : Nat)
  | ok (r : Nat)
  | err

def SinkCfg.exec (i : Nat) (c : SinkCfg) : SinkAct → Option SinkCfg
  | .other a => if c.fed.all (fun x => !a.touchesSend x.1) then (c.s.step a).map fun s' => { c with s := s' } else none
  | .start => if c.st = .value then
      (c.s.step (.call (.send i))).map fun s' =>
        ⟨s', .future c.s.w.objs.length c.s.w.resp.length, (c.s.w.objs.length, c.s.w.resp.length) :: c.fed⟩
    else none
  | .poll wk => match c.st with
    | .future f _ => (c.s.step (.call (.pollSend f wk))).map fun s' => { c with s := s' }
    | _ => none
  | .ok r => match c.st with
    | .future f mid => if .replyOk f mid r ∈ c.s.w.log then some { c with st := .value } else none
    | _ => none
  | .err => match c.st with
    | .future f mid => if .replyInt f mid ∈ c.s.w.log ∨ .sendErr f mid ∈ c.s.w.log then some { c with st := .empty } else none
    | _ => none

theorem SinkCfg.exec_step {i : Nat} {c c' : SinkCfg} {a : SinkAct} (h : c.exec i a = some c') : SinkStep i c c' := by
  cases a with
  | other a =>
    simp only [SinkCfg.exec] at h
    split at h
    · rename_i ht
      obtain ⟨s', h1, rfl⟩ := Option.map_eq_some_iff.mp h
      exact .other (by simpa using ht) h1
    · simp at h
  | start =>
    simp only [SinkCfg.exec] at h
    split at h
    · rename_i ht
      obtain ⟨s', h1, rfl⟩ := Option.map_eq_some_iff.mp h
      exact .startSend ht h1
    · simp at h
  | poll wk =>
    simp only [SinkCfg.exec] at h
    split at h
    · rename_i f mid ht
      obtain ⟨s', h1, rfl⟩ := Option.map_eq_some_iff.mp h
      exact .poll ht h1
    · simp at h
  | ok r =>
    simp only [SinkCfg.exec] at h
    split at h
    · rename_i f mid ht
      split at h
      · simp at h; subst h; exact .ok ht (by assumption)
      · simp at h
    · simp at h
  | err =>
    simp only [SinkCfg.exec] at h
    split at h
    · rename_i f mid ht
      split at h
      · simp at h; subst h; exact .err ht (by assumption)
      · simp at h
    · simp at h

def SinkCfg.execAll (i : Nat) (c : SinkCfg) : List SinkAct → Option SinkCfg
  | [] => some c
  | a :: as => match c.exec i a with
    | some c' => c'.execAll i as
    | none => none

theorem SinkRun.execAll {cap : Option Nat} {i : Nat} {c c' : SinkCfg} {as : List SinkAct} (h : SinkRun cap i c)
    (he : c.execAll i as = some c') : SinkRun cap i c' := by
  induction as generalizing c with
  | nil => simp [SinkCfg.execAll] at he; subst he; exact h
  | cons a as ih =>
    simp only [SinkCfg.execAll] at he
    split at he
    · rename_i c1 h1; exact ih (.step h (SinkCfg.exec_step h1)) he
    · simp at he

/-- Two items are fed, received and handled. -/
def exSink : List SinkAct :=
  [.start, .poll 0, .other (.exec 1), .other (.exec 1), .other (.exec 1), .other (.exec 1), .other (.exec 1), .other (.call (.next 1)),
   .other (.call (.pollRecv 3 0)), .other (.exec 3), .other (.call (.dispatch 3)), .other (.call (.finish 3 42)), .other (.exec 5),
   .other (.exec 5), .other (.exec 5), .poll 0, .other (.exec 6), .ok 42,
   .start, .poll 0, .other (.exec 8), .other (.exec 8), .other (.exec 8), .other (.exec 8), .other (.exec 8), .other (.call (.next 1)),
   .other (.call (.pollRecv 5 0)), .other (.exec 10), .other (.call (.dispatch 5)), .other (.call (.finish 5 43)), .other (.exec 12),
   .other (.exec 12), .other (.exec 12), .poll 0, .other (.exec 13), .ok 43]

/-- Meets the hypotheses of `C32_fed_after`, `C32_order`, `C32_handled_order`, `C32_one_in_flight`, `C32_default_priority`. -/
example : ∃ c, SinkRun (some 1) 0 c ∧ c.fed = [(4, 1), (2, 0)] ∧ c.st = .value ∧ Ev.recv 5 0 (.one ⟨1, .valued 0⟩) ∈ c.s.w.log ∧
    Ev.handled 1 43 ∈ c.s.w.log := by
  refine ⟨_, SinkRun.execAll (as := exSink) (SinkRun.new .init (rc := .strong) rfl) rfl, rfl, rfl, ?_, ?_⟩ <;> decide

/-- The actor is gone: the first item fails, and the sink is unusable from then on. Meets the hypotheses of `C32_error_final`. -/
example : ∃ c, SinkRun (some 1) 0 c ∧ c.fed = [(2, 0)] ∧ c.st = .empty := by
  refine ⟨_, SinkRun.execAll (as := [.other (.call (.dropMailbox 1)), .other (.exec 0), .other (.exec 0), .other (.exec 0), .start,
    .poll 0, .other (.exec 2), .err]) (SinkRun.new .init (rc := .strong) rfl) rfl, rfl, rfl⟩

end Xtra
