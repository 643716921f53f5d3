import Verif.PropsCount
/-!
# Destructors that run inside the channel's lock (C33)

The channel model of `Model.lean` treats messages as opaque. Here the references a message owns matter: when the last mailbox is
dropped, `shutdown_waiting_senders` (`xtra/src/chan.rs:244-259`) destroys the queued and the waiting messages *while holding the
channel's mutex*, and destroying a message destroys the addresses in it, whose destructor (`on_sender_dropped`, `chan.rs:82-91`) may
take the same mutex (`shutdown_waiting_receivers`, `chan.rs:214-231`). `std::sync::Mutex` is not reentrant.

The model is the sequence of actions of the one thread that drops; the other threads are taken to be idle (holding no lock), which
is the best case. A message is represented by the list of references it owns, in the order in which its destructor destroys them
(fields in order, nested values flattened).
-/

namespace Xtra.Reentrant

/-- A reference to this channel owned by a message. -/
inductive Own where
  /-- strong address, or anything containing one (an unpolled send future, a `MessageChannel`) -/
  | strong
  | weak
  /-- a mailbox, receive future or received message -/
  | mailbox
  /-- anything else -/
  | other
  deriving DecidableEq, Repr

/-- What destructors see of the channel. -/
structure Chan where
  /-- `Chan::sender_count` -/
  sc : Nat
  /-- `Chan::receiver_count` -/
  rcv : Nat
  /-- `Chan::chan` is locked -/
  locked : Bool
  /-- messages in `Inner::unicast_queue` -/
  uq : List (List Own)
  /-- messages of `Inner::waiting_send_to_one` and `Inner::waiting_send_to_all` -/
  waiting : List (List Own)
  deriving DecidableEq, Repr

/-- Actions of a destructor. -/
inductive Instr where
  /-- destroy one reference -/
  | drop (o : Own)
  /-- `self.chan.lock()` -/
  | lock
  /-- end of the guard's scope -/
  | unlock
  /-- `inner.unicast_queue.clear()` (chan.rs:253) -/
  | clearQueue
  /-- `inner.waiting_send_to_one.clear(); inner.waiting_send_to_all.clear()` (chan.rs:257-258): each `Handle::drop` sets `Closed`, which
  destroys the message (waiting_sender.rs:48-64) -/
  | clearWaiting
  deriving DecidableEq, Repr

/-- One action; `none`: the thread blocks forever (or panics) on a lock it holds itself. The new actions come before the rest. -/
def step (c : Chan) : Instr → Option (Chan × List Instr)
  | .drop .strong =>
    -- on_sender_dropped (chan.rs:82-91), shutdown_waiting_receivers (chan.rs:214-231)
    some ({ c with sc := c.sc - 1 }, if c.sc = 1 then [.lock, .unlock] else [])
  | .drop .mailbox =>
    -- on_receiver_dropped (chan.rs:64-73), shutdown_waiting_senders (chan.rs:244-259)
    some ({ c with rcv := c.rcv - 1 }, if c.rcv = 1 then [.lock, .clearQueue, .clearWaiting, .unlock] else [])
  | .drop .weak => some (c, [])
  | .drop .other => some (c, [])
  | .lock => if c.locked then none else some ({ c with locked := true }, [])
  | .unlock => some ({ c with locked := false }, [])
  | .clearQueue => some ({ c with uq := [] }, c.uq.flatten.map .drop)
  | .clearWaiting => some ({ c with waiting := [] }, c.waiting.flatten.map .drop)

/-- The actions run to the end, leaving the channel as `c'`. -/
inductive Completes : Chan → List Instr → Chan → Prop where
  | nil {c : Chan} : Completes c [] c
  | cons {c c1 c' : Chan} {i : Instr} {is js : List Instr} : step c i = some (c1, js) → Completes c1 (js ++ is) c' →
      Completes c (i :: is) c'

/-- Number of strong references in these messages. -/
def strongs (ms : List (List Own)) : Nat := ms.flatten.count .strong

/-- The counters count at least what the queued messages own; no thread is inside the channel. -/
structure Sane (c : Chan) : Prop where
  sc : strongs c.uq + strongs c.waiting ≤ c.sc
  rcv : c.uq.flatten.count .mailbox + c.waiting.flatten.count .mailbox ≤ c.rcv
  free : c.locked = false

/-- Exactly one mailbox reference is left, and it is not inside a queued message: this is the one being dropped. -/
def LastMailbox (c : Chan) : Prop := c.rcv = 1 ∧ Own.mailbox ∉ c.uq.flatten ∧ Own.mailbox ∉ c.waiting.flatten

/-- Destroying references while the lock is held, as long as the strong count stays positive (or no strong reference is among them). -/
theorem drops_complete {os : List Own} {c c' : Chan} {is : List Instr} (hm : Own.mailbox ∉ os) (hs : os.count .strong < c.sc ∨ os.count .strong = 0)
    (h : Completes { c with sc := c.sc - os.count .strong } is c') : Completes c (os.map .drop ++ is) c' := by
  induction os generalizing c with
  | nil => simpa using h
  | cons o os ih =>
    simp only [List.mem_cons, not_or] at hm
    cases o with
    | strong =>
      simp only [List.count_cons_self, Nat.add_eq_zero_iff, Nat.one_ne_zero, and_false, or_false] at hs
      refine .cons rfl ?_
      have : c.sc ≠ 1 := by omega
      simp only [this, if_false, List.nil_append]
      refine ih hm.2 (.inl (by simp only; omega)) ?_
      simp only [List.count_cons_self] at h
      have e : c.sc - 1 - os.count .strong = c.sc - (os.count .strong + 1) := by omega
      simpa [e] using h
    | mailbox => simp at hm
    | weak => exact .cons rfl (ih hm.2 (by simpa using hs) (by simpa using h))
    | other => exact .cons rfl (ih hm.2 (by simpa using hs) (by simpa using h))

/-- Destroying references while the lock is held, among them the last strong one: stuck. -/
theorem drops_stuck {os : List Own} {c c' : Chan} {is : List Instr} (hm : Own.mailbox ∉ os) (hl : c.locked = true)
    (hs : c.sc ≤ os.count .strong) (hp : 0 < c.sc) : ¬ Completes c (os.map .drop ++ is) c' := by
  induction os generalizing c with
  | nil => simp at hs; omega
  | cons o os ih =>
    simp only [List.mem_cons, not_or] at hm
    intro h
    cases h with
    | cons h1 h2 =>
      cases o with
      | strong =>
        simp only [step, Option.some.injEq, Prod.mk.injEq] at h1
        obtain ⟨rfl, rfl⟩ := h1
        by_cases h0 : c.sc = 1
        · simp only [h0, if_true, List.cons_append] at h2
          cases h2 with
          | cons h3 h4 => simp [step, hl] at h3
        · simp only [h0, if_false, List.nil_append] at h2
          exact ih (c := { c with sc := c.sc - 1 }) hm.2 hl (by simp at hs ⊢; omega) (by simp only; omega) h2
      | mailbox => simp at hm
      | weak =>
        simp only [step, Option.some.injEq, Prod.mk.injEq] at h1
        obtain ⟨rfl, rfl⟩ := h1
        exact ih hm.2 hl (by simpa using hs) hp h2
      | other =>
        simp only [step, Option.some.injEq, Prod.mk.injEq] at h1
        obtain ⟨rfl, rfl⟩ := h1
        exact ih hm.2 hl (by simpa using hs) hp h2

/-- The converse of `drops_complete`. -/
theorem drops_inv {os : List Own} {c c' : Chan} {is : List Instr} (hm : Own.mailbox ∉ os) (hs : os.count .strong < c.sc)
    (h : Completes c (os.map .drop ++ is) c') : Completes { c with sc := c.sc - os.count .strong } is c' := by
  induction os generalizing c with
  | nil => simpa using h
  | cons o os ih =>
    simp only [List.mem_cons, not_or] at hm
    cases h with
    | cons h1 h2 =>
      cases o with
      | strong =>
        simp only [step, Option.some.injEq, Prod.mk.injEq] at h1
        obtain ⟨rfl, rfl⟩ := h1
        simp only [List.count_cons_self] at hs
        have h0 : c.sc ≠ 1 := by omega
        simp only [h0, if_false, List.nil_append] at h2
        have := ih (c := { c with sc := c.sc - 1 }) hm.2 (by simp only; omega) h2
        have e : c.sc - 1 - os.count .strong = c.sc - (os.count .strong + 1) := by omega
        simpa [e] using this
      | mailbox => simp at hm
      | weak =>
        simp only [step, Option.some.injEq, Prod.mk.injEq] at h1
        obtain ⟨rfl, rfl⟩ := h1
        simpa using ih hm.2 (by simpa using hs) h2
      | other =>
        simp only [step, Option.some.injEq, Prod.mk.injEq] at h1
        obtain ⟨rfl, rfl⟩ := h1
        simpa using ih hm.2 (by simpa using hs) h2

/-- Completion is deterministic. -/
theorem Completes.det {c c1 c2 : Chan} {is : List Instr} (h1 : Completes c is c1) (h2 : Completes c is c2) : c1 = c2 := by
  induction h1 with
  | nil => cases h2; rfl
  | cons hs _ ih =>
    cases h2 with
    | cons hs' h' =>
      rw [hs] at hs'
      simp only [Option.some.injEq, Prod.mk.injEq] at hs'
      obtain ⟨rfl, rfl⟩ := hs'
      exact ih h'

/-- **C33** (what holds). If somebody else still holds a strong address, or no queued or waiting message owns one, dropping the last
mailbox completes, whatever else the messages contain; all of them are destroyed, the count of strong references is right and the lock
is free. -/
theorem C33_partial {c : Chan} (hs : Sane c) (hl : LastMailbox c)
    (h : strongs c.uq + strongs c.waiting < c.sc ∨ strongs c.uq + strongs c.waiting = 0) :
    Completes c [.drop .mailbox] ⟨c.sc - (strongs c.uq + strongs c.waiting), 0, false, [], []⟩ := by
  obtain ⟨h1, h2, h3⟩ := hl
  refine .cons (js := [.lock, .clearQueue, .clearWaiting, .unlock]) (by simp [step, h1]; rfl) ?_
  refine .cons (js := []) (by simp [step, hs.free]; rfl) ?_
  refine .cons rfl ?_
  refine drops_complete h2 (by simp only; unfold strongs at h; omega) ?_
  refine .cons rfl ?_
  refine drops_complete h3 (by simp only; unfold strongs at h; omega) ?_
  refine .cons rfl ?_
  have e : c.sc - c.uq.flatten.count .strong - c.waiting.flatten.count .strong = c.sc - (strongs c.uq + strongs c.waiting) := by
    unfold strongs; omega
  simp only [h1, e]
  exact .nil

/-- **C33** (where it fails). If all strong addresses that are left are owned by queued or waiting messages, dropping the last mailbox
never completes. -/
theorem C33_deadlock {c : Chan} (hs : Sane c) (hl : LastMailbox c) (hp : 0 < c.sc)
    (h : strongs c.uq + strongs c.waiting = c.sc) : ∀ c', ¬ Completes c [.drop .mailbox] c' := by
  obtain ⟨h1, h2, h3⟩ := hl
  intro c' hc
  cases hc with
  | cons e1 hc =>
  simp only [step, h1, if_true, Option.some.injEq, Prod.mk.injEq] at e1
  obtain ⟨rfl, rfl⟩ := e1
  cases hc with
  | cons e1 hc =>
  simp only [step, hs.free, Option.some.injEq, Prod.mk.injEq, Bool.false_eq_true, if_false] at e1
  obtain ⟨rfl, rfl⟩ := e1
  cases hc with
  | cons e1 hc =>
  simp only [step, Option.some.injEq, Prod.mk.injEq] at e1
  obtain ⟨rfl, rfl⟩ := e1
  by_cases hu : c.sc ≤ strongs c.uq
  · exact drops_stuck (c := ⟨c.sc, 0, true, [], c.waiting⟩) h2 rfl hu hp hc
  · have hc := drops_inv (c := ⟨c.sc, 0, true, [], c.waiting⟩) h2 (by unfold strongs at hu; simp only; omega) hc
    cases hc with
    | cons e1 hc =>
    simp only [step, Option.some.injEq, Prod.mk.injEq] at e1
    obtain ⟨rfl, rfl⟩ := e1
    unfold strongs at hu h
    exact drops_stuck (c := ⟨c.sc - c.uq.flatten.count .strong, 0, true, [], []⟩) h3 rfl (by simp only; omega) (by simp only; omega) hc

/-- **C33.** Exactly when it completes. -/
theorem C33_exact {c : Chan} (hs : Sane c) (hl : LastMailbox c) :
    (∃ c', Completes c [.drop .mailbox] c') ↔ (strongs c.uq + strongs c.waiting < c.sc ∨ strongs c.uq + strongs c.waiting = 0) := by
  constructor
  · rintro ⟨c', h⟩
    apply Classical.byContradiction
    intro hn
    have := hs.sc
    exact C33_deadlock hs hl (by omega) (by omega) c' h
  · intro h
    exact ⟨_, C33_partial hs hl h⟩

/-- **C33** (the claim is false of the code): there is a channel with one queued message, which owns the last strong address, such
that dropping the last mailbox never completes. -/
theorem C33_refuted : ¬ ∀ c, Sane c → LastMailbox c → ∃ c', Completes c [.drop .mailbox] c' := by
  intro h
  have hs : Sane ⟨1, 1, false, [[.strong]], []⟩ := ⟨by decide, by decide, rfl⟩
  have hl : LastMailbox ⟨1, 1, false, [[.strong]], []⟩ := ⟨rfl, by decide, by decide⟩
  have := (C33_exact hs hl).mp (h _ hs hl)
  revert this
  decide

/-- If a queued message owns a mailbox, dropping the others completes at once and destroys nothing. -/
theorem C33_not_last {c : Chan} (h : 1 < c.rcv) : Completes c [.drop .mailbox] { c with rcv := c.rcv - 1 } := by
  refine .cons rfl ?_
  have : c.rcv ≠ 1 := by omega
  simp only [this, if_false, List.nil_append]
  exact .nil

/-- Somebody holds another address: two queued messages and a waiting one are destroyed. Meets the hypotheses of `C33_exact`. -/
example : Completes ⟨4, 1, false, [[.strong, .other], [.weak]], [[.strong, .strong]]⟩ [.drop .mailbox] ⟨1, 0, false, [], []⟩ :=
  C33_partial (c := ⟨4, 1, false, [[.strong, .other], [.weak]], [[.strong, .strong]]⟩) ⟨by decide, by decide, rfl⟩
    ⟨rfl, by decide, by decide⟩ (.inl (by decide))

/-- The last strong addresses are owned by a queued and a waiting message. -/
example : ∀ c', ¬ Completes ⟨2, 1, false, [[.other, .strong]], [[.strong]]⟩ [.drop .mailbox] c' :=
  C33_deadlock (c := ⟨2, 1, false, [[.other, .strong]], [[.strong]]⟩) ⟨by decide, by decide, rfl⟩ ⟨rfl, by decide, by decide⟩
    (by decide) (by decide)

/-! ## In terms of the channel model

In `Model.lean` an address that has been moved into a message is an address object nobody touches until the message is destroyed. So
let `own mid` be the objects owned by message `mid`. -/

/-- What kind of reference an object is. -/
def kindOf (w : World) (i : Nat) : Own :=
  match w.objs[i]? with
  | some o => if o.isStrongRef then .strong else if o.isMailboxRef then .mailbox else .other
  | none => .other

/-- Messages of parked sends, in the queues of waiting senders. -/
def parked (w : World) : List Msg :=
  (w.wOne ++ w.wAll).filterMap fun (h : Nat) => match w.ws[h]? with | some (.active _ m) => some m | _ => none

/-- The channel as destructors see it. -/
def view (w : World) (own : Nat → List Nat) : Chan :=
  ⟨w.sc, w.rcv, false, w.uq.map fun m => (own m.id).map (kindOf w), (parked w).map fun m => (own m.id).map (kindOf w)⟩

/-- All objects owned by queued and waiting messages. -/
def ownedIds (w : World) (own : Nat → List Nat) : List Nat := (w.uq ++ parked w).flatMap fun m => own m.id

theorem length_le_countP {p : Obj → Bool} {objs : List Obj} {ids : List Nat} (hn : ids.Nodup)
    (h : ∀ i ∈ ids, ∃ o, objs[i]? = some o ∧ p o = true) : ids.length ≤ objs.countP p := by
  have h1 : ids.length ≤ ((objs.zipIdx.filter fun x => p x.1).map Prod.snd).length := by
    refine hn.length_le_of_subset ?_
    intro i hi
    obtain ⟨o, h1, h2⟩ := h i hi
    rw [List.mem_map]
    exact ⟨(o, i), List.mem_filter.mpr ⟨List.mem_zipIdx_iff_getElem?.mpr h1, h2⟩, rfl⟩
  rw [List.length_map, ← List.countP_eq_length_filter] at h1
  have h2 : objs.zipIdx.countP (fun x => p x.1) = objs.countP p := by
    have := List.countP_map (p := p) (f := Prod.fst) (l := objs.zipIdx)
    rw [List.zipIdx_map_fst] at this
    exact this.symm
  omega

theorem count_kind {w : World} {ids : List Nat} (k : Own) : (ids.map (kindOf w)).count k = (ids.filter fun i => kindOf w i == k).length := by
  rw [List.count, List.countP_map, List.countP_eq_length_filter]
  rfl

theorem kind_strong {w : World} {i : Nat} (h : kindOf w i = .strong) : ∃ o, w.objs[i]? = some o ∧ o.isStrongRef = true := by
  unfold kindOf at h
  split at h
  · rename_i o ho
    refine ⟨o, ho, ?_⟩
    split at h
    · assumption
    · split at h <;> simp at h
  · simp at h

theorem kind_mailbox {w : World} {i : Nat} (h : kindOf w i = .mailbox) : ∃ o, w.objs[i]? = some o ∧ o.isMailboxRef = true := by
  unfold kindOf at h
  split at h
  · rename_i o ho
    refine ⟨o, ho, ?_⟩
    split at h
    · simp at h
    · split at h
      · assumption
      · simp at h
  · simp at h

theorem view_strongs (w : World) (own : Nat → List Nat) (k : Own) :
    (view w own).uq.flatten.count k + (view w own).waiting.flatten.count k = ((ownedIds w own).map (kindOf w)).count k := by
  have e : ∀ l : List Msg, (l.map fun m => (own m.id).map (kindOf w)).flatten = (l.flatMap fun m => own m.id).map (kindOf w) := by
    intro l
    induction l with
    | nil => rfl
    | cons m l ih => simp [ih]
  simp only [view, ownedIds, e, List.flatMap_append, List.map_append, List.count_append]

/-- No object is owned twice, so the counters are as assumed above. -/
theorem view_sane {cap : Option Nat} {w : World} (hq : Quiet cap w) {own : Nat → List Nat} (hn : (ownedIds w own).Nodup) :
    Sane (view w own) := by
  obtain ⟨h1, h2⟩ := C14_counts_exact_quiet hq
  refine ⟨?_, ?_, rfl⟩
  · have := view_strongs w own .strong
    unfold strongs
    rw [this, count_kind]
    show _ ≤ w.sc
    rw [h1]
    refine length_le_countP (hn.filter _) ?_
    intro i hi
    simp at hi
    exact kind_strong hi.2
  · rw [view_strongs w own .mailbox, count_kind]
    show _ ≤ w.rcv
    rw [h2]
    refine length_le_countP (hn.filter _) ?_
    intro i hi
    simp at hi
    exact kind_mailbox hi.2

/-- The mailbox object `i`, not owned by a message, is the only mailbox reference. -/
theorem view_last {cap : Option Nat} {w : World} (hq : Quiet cap w) {own : Nat → List Nat} {i b : Nat}
    (hi : w.objs[i]? = some (.mailbox b)) (hio : i ∉ ownedIds w own) (h1 : w.mailboxRefs = 1) : LastMailbox (view w own) := by
  obtain ⟨-, h2⟩ := C14_counts_exact_quiet hq
  have no : ∀ j ∈ ownedIds w own, kindOf w j ≠ .mailbox := by
    intro j hj hk
    obtain ⟨o, ho, hm⟩ := kind_mailbox hk
    have : [i, j].length ≤ w.objs.countP Obj.isMailboxRef := by
      refine length_le_countP ?_ ?_
      · simp; rintro rfl; exact hio hj
      · intro k hk; simp at hk; rcases hk with rfl | rfl
        · exact ⟨_, hi, rfl⟩
        · exact ⟨o, ho, hm⟩
    simp [World.mailboxRefs] at this h1
    omega
  have hz : ((ownedIds w own).map (kindOf w)).count .mailbox = 0 := by
    rw [List.count_eq_zero, List.mem_map]
    rintro ⟨j, hj, hk⟩
    exact no j hj hk
  rw [← view_strongs] at hz
  refine ⟨?_, ?_, ?_⟩
  · show w.rcv = 1; rw [h2, h1]
  · rw [← List.count_eq_zero]; omega
  · rw [← List.count_eq_zero]; omega

/-- **C33** in API terms: in every state between calls, whatever the queued and waiting messages own, dropping the last mailbox `i`
completes if somebody else holds a strong reference, or if the messages own none. -/
theorem C33_api_partial {cap : Option Nat} {w : World} (hq : Quiet cap w) {own : Nat → List Nat} (hn : (ownedIds w own).Nodup) {i b : Nat}
    (hi : w.objs[i]? = some (.mailbox b)) (hio : i ∉ ownedIds w own) (h1 : w.mailboxRefs = 1)
    (h : (∃ k o, k ∉ ownedIds w own ∧ w.objs[k]? = some o ∧ o.isStrongRef = true) ∨
      ∀ k ∈ ownedIds w own, ∀ o, w.objs[k]? = some o → o.isStrongRef = false) :
    ∃ c', Completes (view w own) [.drop .mailbox] c' ∧ c'.uq = [] ∧ c'.waiting = [] ∧ c'.locked = false := by
  refine ⟨_, C33_partial (view_sane hq hn) (view_last hq hi hio h1) ?_, rfl, rfl, rfl⟩
  have := view_strongs w own .strong
  unfold strongs
  rw [this, count_kind]
  obtain ⟨h3, -⟩ := C14_counts_exact_quiet hq
  show _ < w.sc ∨ _
  rcases h with ⟨k, o, hk, ho, hs⟩ | h
  · left
    rw [h3]
    have : (k :: (ownedIds w own).filter fun i => kindOf w i == .strong).length ≤ w.objs.countP Obj.isStrongRef := by
      refine length_le_countP ?_ ?_
      · rw [List.nodup_cons]
        exact ⟨fun hm => hk (List.mem_filter.mp hm).1, hn.filter _⟩
      · intro j hj
        rcases List.mem_cons.mp hj with rfl | hj
        · exact ⟨o, ho, hs⟩
        · simp at hj; exact kind_strong hj.2
    simp only [List.length_cons] at this
    unfold World.strongRefs
    omega
  · right
    rw [List.length_eq_zero_iff, List.filter_eq_nil_iff]
    intro k hk hs
    simp at hs
    obtain ⟨o, ho, hs⟩ := kind_strong hs
    rw [h k hk o ho] at hs
    simp at hs

/-- A message owning a clone of the address is sent, and the other address is dropped. -/
def exOwn : List Act :=
  [.call (.cloneAddr 0), .call (.send 0), .call (.detach 3), .call (.pollSend 3 0), .exec 3, .exec 3, .exec 3, .exec 3, .exec 3,
   .call (.dropAddr 0), .exec 4]

/-- **C33** in API terms, refuted: a reachable state in which message 0 is queued and owns the only strong address (object 2), object
1 is the only mailbox, and dropping it never completes. -/
theorem C33_api_refuted : ∃ w, Quiet none w ∧ ∃ own : Nat → List Nat, (ownedIds w own).Nodup ∧ ownedIds w own = [2] ∧
    w.objs[2]? = some (.addr .strong) ∧ w.objs[1]? = some (.mailbox 0) ∧ w.mailboxRefs = 1 ∧
    ∀ c', ¬ Completes (view w own) [.drop .mailbox] c' := by
  have hq : Quiet none _ := ⟨_, Reachable.run .init (as := exOwn) rfl, by decide⟩
  refine ⟨_, hq, fun i => if i = 0 then [2] else [], by decide, by decide, rfl, rfl, by decide, ?_⟩
  exact C33_deadlock (view_sane hq (by decide)) (view_last hq (i := 1) (b := 0) rfl (by decide) (by decide)) (by decide) (by decide)

/-- The same message while the other address is still there: the drop of the last mailbox completes. Meets the hypotheses of
`C33_api_partial`. -/
example : ∃ w, Quiet none w ∧ ∃ own : Nat → List Nat, (ownedIds w own).Nodup ∧ ownedIds w own = [2] ∧ 1 ∉ ownedIds w own ∧
    w.objs[1]? = some (.mailbox 0) ∧ w.mailboxRefs = 1 ∧ w.objs[0]? = some (.addr .strong) ∧ 0 ∉ ownedIds w own := by
  have hq : Quiet none _ := ⟨_, Reachable.run .init (as := exOwn.take 9) rfl, by decide⟩
  exact ⟨_, hq, fun i => if i = 0 then [2] else [], by decide, by decide, by decide, rfl, by decide, rfl, by decide⟩

end Xtra.Reentrant
