import Verif.Model
/-!
# Specification: the ideal mailbox

A small abstract machine that says what the library is supposed to do with messages, with no heaps, no
handles, no locks and no threads: messages lie in bags, every operation is one step. It shares with
`Verif/Model.lean` only the vocabulary (`Msg`, `Prio`, `Ctrl`, `AMsg`, `Ev`), none of the code.
`Verif/PropsIdeal.lean` proves that every execution of the modelled code is an execution of this
machine with the same history (C64).
-/

namespace Xtra.Ideal

/-- A bag of messages. -/
abbrev Bag := Msg → Nat

def Bag.add (b : Bag) (m : Msg) : Bag := fun x => if x = m then b x + 1 else b x
def Bag.del (b : Bag) (m : Msg) : Bag := fun x => if x = m then b x - 1 else b x

/-- Change a table in one place. -/
def put {α : Type} (f : Nat → α) (i : Nat) (x : α) : Nat → α := fun j => if j = i then x else f j

/-- A sender that found the mailbox full gets a ticket. -/
inductive Ticket where
  | free
  /-- waiting for room; `all`: the message is a broadcast -/
  | parked (all : Bool) (m : Msg)
  | accepted
  | refused
  deriving DecidableEq, Repr

/-- A receiver that found nothing takes a seat. -/
inductive Seat where
  | free
  | waiting
  /-- somebody told the receiver something and it has not looked yet -/
  | told (k : Ctrl)
  /-- it has looked -/
  | looked
  deriving DecidableEq, Repr

/-- The answer to a request. -/
inductive Answer where
  /-- there is no such request (or it is a broadcast) -/
  | none
  | owed
  | value (r : Nat)
  | interrupted
  deriving DecidableEq, Repr

/-- Destroying a request settles its answer, unless it is settled already. -/
def Answer.interrupt : Answer → Answer
  | .owed => .interrupted
  | a => a

def Answer.give (r : Nat) : Answer → Answer
  | .owed => .value r
  | a => a

/-- The state of the ideal mailbox. -/
@[ext] structure State where
  cap : Option Nat
  /-- number of strong references (addresses and unsent messages) -/
  strong : Nat
  /-- the waiting receivers have been sent home for good -/
  dismissed : Bool
  /-- number of references to mailboxes -/
  boxes : Nat
  /-- number of messages made so far; also the identity of the next one -/
  next : Nat
  /-- messages made and not yet submitted -/
  draft : Bag
  /-- accepted unicast messages nobody has received -/
  store : List Msg
  /-- accepted broadcasts waiting in each mailbox -/
  box : Nat → List Msg
  /-- the mailboxes that exist -/
  live : List Nat
  /-- how full the mailboxes are taken to be with broadcasts -/
  level : Nat
  ticket : Nat → Ticket
  /-- the message a ticket was given out for -/
  forMsg : Nat → Nat
  seat : Nat → Seat
  /-- receiver and mailbox a seat was given to -/
  owner : Nat → Nat × Nat
  /-- receivers waiting to be told something, the longest waiting first -/
  idle : List Nat
  /-- unicast messages on their way back from a receiver that gave up -/
  limbo : Bag
  /-- unicast messages received and not finished -/
  held : Bag
  answer : Nat → Answer
  /-- messages whose sender has been told that they are accepted, or need not be told -/
  known : Nat → Bool
  /-- what has happened, newest first -/
  hist : List Ev

/-- `m` is a best one of `l`. -/
def Best (m : Msg) (l : List Msg) : Prop := ∀ x ∈ l, x.prio.ble m.prio = true

def State.roomOne (s : State) : Prop := ∀ c, s.cap = some c → s.store.length < c
def State.roomAll (s : State) : Prop := ∀ c, s.cap = some c → s.level < c

/-- `n` is the largest number of broadcasts waiting in an existing mailbox. -/
def Longest (live : List Nat) (box : Nat → List Msg) (n : Nat) : Prop :=
  (∀ b ∈ live, (box b).length ≤ n) ∧ (n = 0 ∨ ∃ b ∈ live, (box b).length = n)

/-- Put a unicast message before the receivers: the longest waiting one gets it, otherwise it is stored. -/
inductive Offer (s : State) (m : Msg) : State → Prop where
  | hand {c rest} : s.idle = c :: rest →
      Offer s m { s with idle := rest, seat := put s.seat c (.told (.newMessage m)) }
  | store {st} : s.idle = [] → st.Perm (m :: s.store) → Offer s m { s with store := st }

/-- A broadcast goes to every existing mailbox; every waiting receiver is told. -/
inductive Deliver (s : State) (m : Msg) : State → Prop where
  | mk {bx} : (∀ b ∈ s.live, (bx b).Perm (m :: s.box b)) → (∀ b, b ∉ s.live → bx b = s.box b) →
      Deliver s m { s with
        box := bx, idle := [], seat := fun c => if c ∈ s.idle then .told .newBroadcast else s.seat c
        level := s.level + 1, hist := .bsent m s.live :: s.hist }

/-- After a unicast message was taken out: if there is room, a best parked one moves up. -/
inductive RefillOne (s : State) : State → Prop where
  | full : ¬ s.roomOne → RefillOne s s
  | none : (∀ h m, s.ticket h ≠ .parked false m) → RefillOne s s
  | move {h m st} : s.roomOne → s.ticket h = .parked false m →
      (∀ h' m', s.ticket h' = .parked false m' → m'.prio.ble m.prio = true) → st.Perm (m :: s.store) →
      RefillOne s { s with store := st, ticket := put s.ticket h .accepted }

/-- After a broadcast was taken out: if there is room, a best parked one is delivered. -/
inductive RefillAll (s : State) : State → Prop where
  | full : ¬ s.roomAll → RefillAll s s
  | none : (∀ h m, s.ticket h ≠ .parked true m) → RefillAll s s
  | move {h m s'} : s.roomAll → s.ticket h = .parked true m →
      (∀ h' m', s.ticket h' = .parked true m' → m'.prio.ble m.prio = true) →
      Deliver { s with ticket := put s.ticket h .accepted } m s' → RefillAll s s'

/-- A best broadcast `m` of mailbox `b` is taken out. -/
inductive TakeAll (s : State) (b : Nat) (m : Msg) : State → Prop where
  | mk {l n s'} : (s.box b).Perm (m :: l) → Best m l → Longest s.live (put s.box b l) n →
      RefillAll { s with box := put s.box b l, level := n } s' → TakeAll s b m s'

/-- Message `i` is destroyed when everything still waiting is thrown away. -/
def State.waits (s : State) (i : Nat) : Prop :=
  (∃ m ∈ s.store, m.id = i) ∨ ∃ h a m, s.ticket h = .parked a m ∧ m.id = i

def Ticket.refuse : Ticket → Ticket
  | .parked _ _ => .refused
  | t => t

/-- The future `f` was made for message `i`. -/
def State.mine (s : State) (f i : Nat) : Prop := ∃ bc, Ev.made f i bc ∈ s.hist

/-- The operations. -/
inductive Step : State → State → Prop where
  -- references
  | retain {s} : s.strong ≠ 0 → Step s { s with strong := s.strong + 1 }
  | release {s} : s.strong ≠ 0 → Step s { s with strong := s.strong - 1 }
  | enter {s} : s.boxes ≠ 0 → Step s { s with boxes := s.boxes + 1 }
  | leave {s} : s.boxes ≠ 0 → Step s { s with boxes := s.boxes - 1 }
  | upgraded {s i} : Step s { s with hist := .upgraded i (decide (s.strong ≠ 0)) :: s.hist }
  | openBox {s b} : b ∉ s.live → s.box b = [] → Step s { s with live := s.live ++ [b] }
  | closeBox {s b} : Step s { s with live := s.live.filter (· ≠ b), box := put s.box b [] }
  | len {s i} : Step s { s with hist := .len i (s.level + s.store.length) :: s.hist }
  -- sending
  | make {s f bc} : Step s { s with
      next := s.next + 1, draft := s.draft.add ⟨s.next, .valued 0⟩
      answer := put s.answer s.next (if bc then .none else .owed)
      hist := .made f s.next bc :: s.hist }
  | prio {s m p} : s.draft m ≠ 0 → Step s { s with
      draft := (s.draft.del m).add { m with prio := .valued p }, hist := .prioSet m.id p :: s.hist }
  /-- an unsent message is destroyed -/
  | abandon {s m} : s.draft m ≠ 0 → Step s { s with
      draft := s.draft.del m, answer := put s.answer m.id (s.answer m.id).interrupt
      hist := .dropped m.id :: s.hist }
  /-- the message is turned down: nobody can receive it or nobody holds a strong address -/
  | reject {s m f} : s.draft m ≠ 0 → s.mine f m.id → s.boxes = 0 ∨ s.strong = 0 → Step s { s with
      draft := s.draft.del m, answer := put s.answer m.id (s.answer m.id).interrupt
      hist := .sendErr f m.id :: .dropped m.id :: s.hist }
  /-- a unicast message is accepted -/
  | submit {s m s'} : s.draft m ≠ 0 → s.answer m.id ≠ .none → s.idle ≠ [] ∨ s.roomOne →
      Offer { s with draft := s.draft.del m, known := put s.known m.id true } m s' → Step s s'
  /-- no receiver waits and there is no room: the sender has to wait -/
  | park {s m h} : s.draft m ≠ 0 → s.answer m.id ≠ .none → s.idle = [] → ¬ s.roomOne →
      s.ticket h = .free → Step s { s with
        draft := s.draft.del m, ticket := put s.ticket h (.parked false m)
        forMsg := put s.forMsg h m.id }
  | submitAll {s m s'} : s.draft m ≠ 0 → s.answer m.id = .none → s.roomAll →
      Deliver { s with draft := s.draft.del m, known := put s.known m.id true } m s' → Step s s'
  | parkAll {s m h} : s.draft m ≠ 0 → s.answer m.id = .none → ¬ s.roomAll →
      s.ticket h = .free → Step s { s with
        draft := s.draft.del m, ticket := put s.ticket h (.parked true m)
        forMsg := put s.forMsg h m.id }
  /-- the sender looks at its ticket -/
  | stillParked {s f h a m wk} : s.ticket h = .parked a m → m.id = s.forMsg h →
      s.mine f m.id → Step s { s with hist := .sendPending f (s.forMsg h) wk :: s.hist }
  | learn {s h} : s.ticket h = .accepted →
      Step s { s with ticket := put s.ticket h .free, known := put s.known (s.forMsg h) true }
  | refused {s f h} : s.ticket h = .refused → s.mine f (s.forMsg h) →
      Step s { s with ticket := put s.ticket h .free, hist := .sendErr f (s.forMsg h) :: s.hist }
  /-- a parked sender gives up -/
  | cancel {s h a m} : s.ticket h = .parked a m → Step s { s with
      ticket := put s.ticket h .free, answer := put s.answer m.id (s.answer m.id).interrupt
      hist := .dropped m.id :: s.hist }
  | tear {s h} : (∀ a m, s.ticket h ≠ .parked a m) → Step s { s with ticket := put s.ticket h .free }
  /-- the sender is told that its message is accepted -/
  | sendOk {s f i} : s.known i = true → s.mine f i → Step s { s with hist := .sendOk f i :: s.hist }
  -- answers
  | replyPending {s f i wk} : s.answer i = .owed → s.mine f i →
      Step s { s with hist := .sendPending f i wk :: s.hist }
  | replyOk {s f i r} : s.answer i = .value r → s.mine f i →
      Step s { s with hist := .replyOk f i r :: s.hist }
  | replyInt {s f i} : s.answer i = .interrupted → s.mine f i →
      Step s { s with hist := .replyInt f i :: s.hist }
  -- receiving
  /-- a unicast message is better than everything else stored and in the mailbox -/
  | takeOne {s r b m st s'} : s.store.Perm (m :: st) → Best m st → Best m (s.box b) →
      RefillOne { s with store := st } s' →
      Step s { s' with held := s'.held.add m, hist := .recv r b (.one m) :: s'.hist }
  /-- a broadcast is strictly better than everything stored -/
  | takeAll {s r b m s'} : (∀ x ∈ s.store, x.prio.blt m.prio = true) → TakeAll s b m s' →
      Step s { s' with hist := .recv r b (.all m) :: s'.hist }
  /-- nothing is left and nobody can send any more -/
  | takeEnd {s r b} : s.store = [] → s.box b = [] → s.strong = 0 →
      Step s { s with hist := .recv r b .shutdown :: s.hist }
  /-- nothing is there: the receiver waits, provided that somebody holds a strong address or those who wait are still to be dismissed -/
  | sit {s r b c} : s.store = [] → s.box b = [] → s.dismissed = false → s.seat c = .free → Step s { s with
      seat := put s.seat c .waiting, owner := put s.owner c (r, b), idle := s.idle ++ [c] }
  | stillWaiting {s c wk} : s.seat c = .waiting →
      Step s { s with hist := .recvPending (s.owner c).1 wk :: s.hist }
  /-- the receiver picks up what it was given -/
  | pickUp {s c m} : s.seat c = .told (.newMessage m) → Step s { s with
      seat := put s.seat c .free, held := s.held.add m
      hist := .recv (s.owner c).1 (s.owner c).2 (.one m) :: s.hist }
  | pickEnd {s c} : s.seat c = .told .shutdown → Step s { s with
      seat := put s.seat c .free, hist := .recv (s.owner c).1 (s.owner c).2 .shutdown :: s.hist }
  | look {s c} : s.seat c = .told .newBroadcast → Step s { s with seat := put s.seat c .looked }
  /-- it was told of a broadcast and takes one -/
  | pickAll {s c m s'} : s.seat c = .looked → TakeAll s (s.owner c).2 m s' → Step s { s' with
      seat := put s'.seat c .free, hist := .recv (s.owner c).1 (s.owner c).2 (.all m) :: s'.hist }
  /-- the broadcast it was told of is gone: it starts again -/
  | again {s c} : s.seat c = .looked → s.box (s.owner c).2 = [] →
      Step s { s with seat := put s.seat c .free }
  -- a waiting receiver gives up
  | giveBack {s c m} : s.seat c = .told (.newMessage m) → Step s { s with
      seat := put s.seat c .looked, limbo := s.limbo.add m }
  | ignore {s c k} : s.seat c = .told k → (∀ m, k ≠ .newMessage m) →
      Step s { s with seat := put s.seat c .looked }
  /-- the message it gave back is offered again, whether there is room or not -/
  | reOffer {s m s'} : s.limbo m ≠ 0 → Offer { s with limbo := s.limbo.del m } m s' →
      Step s { s' with hist := .requeued m.id :: s'.hist }
  | rise {s c} : (∀ m, s.seat c ≠ .told (.newMessage m)) → Step s { s with
      seat := put s.seat c .free, idle := s.idle.filter (· ≠ c) }
  /-- it was given a message between looking and leaving: the message is lost (finding C03) -/
  | lose {s c m} : s.seat c = .told (.newMessage m) → Step s { s with
      seat := put s.seat c .free, answer := put s.answer m.id (s.answer m.id).interrupt
      hist := .lost m.id :: s.hist }
  -- the end
  /-- the last strong address is gone: no waiting receiver will be given anything any more -/
  | dismiss {s} : s.strong = 0 → Step s { s with idle := [], dismissed := true }
  | tell {s c} : s.strong = 0 → s.seat c = .waiting → c ∉ s.idle →
      Step s { s with seat := put s.seat c (.told .shutdown) }
  /-- the last mailbox is gone: everything that waits is destroyed -/
  | close {s a} {ds : List Nat} : s.boxes = 0 → (∀ i, s.waits i → a i = (s.answer i).interrupt) →
      (∀ i, ¬ s.waits i → a i = s.answer i) → ds.Nodup → (∀ i, i ∈ ds ↔ s.waits i) →
      Step s { s with
        store := [], live := [], ticket := fun h => (s.ticket h).refuse, answer := a
        hist := ds.map .dropped ++ s.hist }
  /-- `stop_all` -/
  | stopAll {s s'} : s.strong ≠ 0 →
      Deliver { s with next := s.next + 1, answer := put s.answer s.next .none } ⟨s.next, .shutdown⟩ s' →
      Step s s'
  -- handling
  | handled {s m r} : s.held m ≠ 0 → Step s { s with
      held := s.held.del m, answer := put s.answer m.id ((s.answer m.id).give r)
      hist := .handled m.id r :: s.hist }
  | discarded {s m} : s.held m ≠ 0 → Step s { s with
      held := s.held.del m, answer := put s.answer m.id (s.answer m.id).interrupt
      hist := .discarded m.id :: s.hist }

/-- A fresh mailbox and its address. -/
def start (cap : Option Nat) : State where
  cap := cap
  strong := 1
  dismissed := false
  boxes := 1
  next := 0
  draft := fun _ => 0
  store := []
  box := fun _ => []
  live := [0]
  level := 0
  ticket := fun _ => .free
  forMsg := fun _ => 0
  seat := fun _ => .free
  owner := fun _ => (0, 0)
  idle := []
  limbo := fun _ => 0
  held := fun _ => 0
  answer := fun _ => .none
  known := fun _ => false
  hist := []

/-- Any number of steps. -/
inductive Steps : State → State → Prop where
  | refl {s} : Steps s s
  | tail {s t u} : Steps s t → Step t u → Steps s u

/-- The events the ideal mailbox speaks about: everything that concerns messages. Left out: the answers
of `is_connected` and `join`, which look at two counters one after the other (C11, C23, C44), the control
flow of the event loop (C17, C25), the misuse of `priority` (C19), and ghosts. -/
def shown : Ev → Bool
  | .connected _ _ => false
  | .joined _ => false
  | .joinPending _ _ => false
  | .flow _ _ _ => false
  | .prioPanic _ _ => false
  | .late _ => false
  | .panic => false
  | _ => true

/-- `e` says that a receive future yielded the unicast message `j`. -/
def got (j : Nat) : Ev → Bool
  | .recv _ _ (.one m) => m.id == j
  | _ => false

/-- `e` says that message `j` was destroyed, lost or handled to the end. -/
def ended (j : Nat) : Ev → Bool
  | .dropped i => i == j
  | .lost i => i == j
  | .discarded i => i == j
  | .handled i _ => i == j
  | _ => false

/-- `e` is justified by the events `l` before it: its causes are among them, and nothing that rules it out. -/
def Justified (e : Ev) (l : List Ev) : Prop :=
  match e with
  /- made once -/
  | .made _ i _ => ∀ f b, Ev.made f i b ∉ l
  /- the priority of a message that was made and is neither received nor gone -/
  | .prioSet i _ => (∃ f b, Ev.made f i b ∈ l) ∧ l.countP (got i) = 0 ∧ l.countP (ended i) = 0
  /- the future of that message waits or succeeds -/
  | .sendPending f i _ => ∃ b, Ev.made f i b ∈ l
  | .sendOk f i => ∃ b, Ev.made f i b ∈ l
  /- the future of that message fails: the message was destroyed, unreceived -/
  | .sendErr f i => (∃ b, Ev.made f i b ∈ l) ∧ Ev.dropped i ∈ l ∧ l.countP (got i) = 0
  /- a broadcast that was made, or the notice of `stop_all` -/
  | .bsent m _ => (∃ f, Ev.made f m.id true ∈ l) ∨ m.prio = .shutdown
  /- a unicast message that was made, was not received before and is not gone -/
  | .recv _ _ (.one m) => (∃ f, Ev.made f m.id false ∈ l) ∧ l.countP (got m.id) = 0 ∧ l.countP (ended m.id) = 0
  /- a broadcast that was put into this mailbox -/
  | .recv _ b (.all m) => ∃ T, Ev.bsent m T ∈ l ∧ b ∈ T
  | .requeued i => (∃ f, Ev.made f i false ∈ l) ∧ l.countP (got i) = 0 ∧ l.countP (ended i) = 0
  | .dropped i => (∃ f b, Ev.made f i b ∈ l) ∧ l.countP (got i) = 0 ∧ l.countP (ended i) = 0
  | .lost i => (∃ f, Ev.made f i false ∈ l) ∧ l.countP (got i) = 0 ∧ l.countP (ended i) = 0
  /- received before and not finished before -/
  | .handled i _ => (∃ r b m, Ev.recv r b (.one m) ∈ l ∧ m.id = i) ∧ l.countP (ended i) = 0
  | .discarded i => (∃ r b m, Ev.recv r b (.one m) ∈ l ∧ m.id = i) ∧ l.countP (ended i) = 0
  /- the answer that the handler of that very message gave -/
  | .replyOk f i r => Ev.made f i false ∈ l ∧ Ev.handled i r ∈ l
  /- the message was destroyed -/
  | .replyInt f i => Ev.made f i false ∈ l ∧ (Ev.dropped i ∈ l ∨ Ev.lost i ∈ l ∨ Ev.discarded i ∈ l)
  | _ => True

end Xtra.Ideal
