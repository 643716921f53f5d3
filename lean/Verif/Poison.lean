import Verif.Spec
/-! # The channel's lock poisoned

`Chan::chan` is a `std::sync::Mutex` (xtra/src/chan.rs:42). If the destructor of a message panics while the lock is held, the lock is poisoned: `lock()`
returns `Err` from then on. This happens in `shutdown_waiting_senders` (chan.rs:244-259), when the last mailbox goes: it drops the queued messages
and the messages of the parked sends, under the lock. Some operations `unwrap` the `Err` and panic, others ignore it. This file is the channel
model (`Verif/Model.lean`) with that added.

Not modelled: panics of wakers (they would poison the lock too); destructors that run under the lock because of a temporary `Weak::upgrade`
(DESIGN.md, finding 15); a second panic while unwinding, which aborts the process. -/

namespace Xtra

/-- A panic caused by the poisoned lock: in which operation. -/
inductive Boom where
  /-- `Address::len`, and likewise `Address::capacity` (chan.rs:204-211) -/
  | len (i : Nat)
  /-- poll of a send future (chan.rs:115, 147) -/
  | send (f : Nat)
  /-- poll of a receive future (chan.rs:166, 301) -/
  | recv (r : Nat)
  /-- `Mailbox::clone` (chan.rs:96-98) -/
  | clone (o : Nat)
  /-- `Context::stop_all` (chan.rs:237-239) -/
  | stopAll
  /-- drop of an address, mailbox, receive future, message (chan.rs:216, 245, 287: these ignore the poison) -/
  | drop
  deriving DecidableEq, Repr

/-- A step of an API call when the lock is poisoned: what it does, what the call (or its unwinding) does next, and the panic. Steps that do not
take the lock are as before. -/
def execP (w : World) : Micro → World × List Micro × Option Boom
  -- `let mut inner = self.chan.lock().unwrap()` (chan.rs:115, 147): the message and the pointer are dropped by unwinding, the future is used up
  -- (send_future.rs:188-194 has taken its state out)
  | .sendCrit f _ m rc _ => ((w.kill m).setObj f .gone, [.dropTx rc], some (.send f))
  -- chan.rs:166; recv_future.rs:141-144 has taken pointer and queue out of the future
  | .recvTry r b _ => (w.setObj r .gone, [.dropRx, .dropBq b], some (.recv r))
  -- chan.rs:301, waiting_receiver.rs:89-92
  | .recvBcast r b c _ => (({ w with cells := w.cells.set c .gone }).setObj r .gone, [.dropRx, .dropBq b], some (.recv r))
  -- chan.rs:96-98; the pointer cloned before (mailbox.rs:72) is dropped
  | .newBq o => (w.setObj o .gone, [.dropRx], some (.clone o))
  -- chan.rs:237-239; the upgraded pointer (context.rs:30-35) is dropped next
  | .bcastShutdown => (w, [], some .stopAll)
  -- `Err(_) => return` (chan.rs:216-219)
  | .shutRx => (w, [], none)
  -- `Err(_) => return` (chan.rs:245-248)
  | .shutTx => (w, [], none)
  -- `Err(_) => return` (chan.rs:287-290): the message is dropped
  | .requeue m => (w.kill m, [], none)
  | mc => ((exec w mc).1, (exec w mc).2, none)

/-- `shutdown_waiting_senders` (chan.rs:244-259) when the destructor of a queued message panics: the join handles have been notified,
`unicast_queue.clear()` destroys the other messages while unwinding (`BinaryHeap::clear` drains a `Vec`), nothing after it is executed. -/
def World.shutTxQueue (w : World) : World := ({ w with lst := w.lst.map LCell.notify, rang := true, uq := [] }).killAll w.uq

/-- The same when the destructor of the message of a parked send panics, in `waiting_send_to_one.clear()`: the assignment of `Inner::Closed`
(waiting_sender.rs:57) takes place all the same, and `VecDeque::clear` drops the other handles; the parked broadcasts are left. -/
def World.shutTxOne (w : World) : World :=
  let w1 := { w with lst := w.lst.map LCell.notify, rang := true }
  let w2 := ({ w1 with uq := [], bqs := [] }).killAll w1.uq
  ({ w2 with wOne := [] }).closeHandles w2.wOne

/-- Some handle of the queue has a message to drop. -/
def World.holdsMessage (w : World) (q : List Nat) : Prop := ∃ h ∈ q, ∃ wk m, w.ws[h]? = some (.active wk m)

/-- A channel, its lock, and the panics so far that the poisoned lock has caused, newest first. -/
structure XSys where
  s : Sys
  poisoned : Bool
  booms : List Boom
  deriving DecidableEq, Repr

/-- One step. -/
inductive XStep : XSys → XSys → Prop where
  /-- the lock is fine -/
  | ok {x : XSys} {a : Act} {s' : Sys} : x.poisoned = false → x.s.step a = some s' → XStep x { x with s := s' }
  /-- the last mailbox goes, and the destructor of a queued message panics -/
  | panicQueue {x : XSys} {t : Nat} {rest : List Micro} : x.poisoned = false → x.s.th[t]? = some (.shutTx :: rest) → x.s.w.uq ≠ [] →
      XStep x ⟨⟨x.s.w.shutTxQueue, x.s.th.set t rest⟩, true, x.booms⟩
  /-- … or that of the message of a parked send -/
  | panicOne {x : XSys} {t : Nat} {rest : List Micro} : x.poisoned = false → x.s.th[t]? = some (.shutTx :: rest) →
      x.s.w.holdsMessage x.s.w.wOne → XStep x ⟨⟨x.s.w.shutTxOne, x.s.th.set t rest⟩, true, x.booms⟩
  /-- … or that of a parked broadcast, the last thing dropped -/
  | panicAll {x : XSys} {t : Nat} {rest : List Micro} : x.poisoned = false → x.s.th[t]? = some (.shutTx :: rest) →
      x.s.w.holdsMessage x.s.w.wAll → XStep x ⟨⟨x.s.w.shutTx, x.s.th.set t rest⟩, true, x.booms⟩
  /-- the lock is poisoned, a call is made: the first steps of all calls except `len` do not take the lock.
  Calls that read an out-of-date counter are left out here -/
  | call {x : XSys} {c : Call} {w' : World} {ms : List Micro} : x.poisoned = true → (∀ i, c ≠ .len i) → c.stale = false → call x.s.w c = some (w', ms) →
      XStep x { x with s := ⟨w', x.s.th ++ [ms]⟩ }
  | len {x : XSys} {i : Nat} {rc : Rc} : x.poisoned = true → x.s.w.objs[i]? = some (.addr rc) →
      XStep x { x with booms := .len i :: x.booms }
  | exec {x : XSys} {t : Nat} {mc : Micro} {rest : List Micro} : x.poisoned = true → x.s.th[t]? = some (mc :: rest) →
      XStep x ⟨⟨(execP x.s.w mc).1, x.s.th.set t ((execP x.s.w mc).2.1 ++ rest)⟩, true, (execP x.s.w mc).2.2.toList ++ x.booms⟩

/-- Everything that can happen after `Mailbox::bounded`/`unbounded`, panicking destructors included. -/
inductive XRun (cap : Option Nat) : XSys → Prop where
  | new : XRun cap ⟨init cap, false, []⟩
  | step {x x' : XSys} : XRun cap x → XStep x x' → XRun cap x'

/-- Any number of steps. -/
inductive XSteps : XSys → XSys → Prop where
  | refl {x : XSys} : XSteps x x
  | step {x x1 x2 : XSys} : XSteps x x1 → XStep x1 x2 → XSteps x x2

end Xtra
