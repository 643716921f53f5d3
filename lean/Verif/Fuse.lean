/-!
# The futures as state machines that a caller polls

`Model` represents a future that has resolved by `Obj.gone`: user code cannot poll it again. Here the
futures are modelled with their `Done` states, as they are polled by an arbitrary caller, also after they
have resolved. What the channel, the reply slot and the handler answer is arbitrary in every poll.
-/

namespace Xtra.Fuse

/-- What a call of `Future::poll` shows to its caller: `Poll::Pending`, `Poll::Ready`, or a panic. -/
inductive Out (α : Type) where
  | pending
  | ready (a : α)
  | panic
  deriving DecidableEq, Repr

/-- `Error` (xtra/src/lib.rs:200-209). -/
inductive Error where
  | disconnected
  | interrupted
  deriving DecidableEq, Repr

/-- Answer of `Ptr::try_send_to_one` / `try_send_to_all` (xtra/src/chan.rs:105-159): `Err(Disconnected)`,
`Ok(Ok(()))`, `Ok(Err(MailboxFull(waiting)))`. -/
inductive TrySend where
  | disconnected
  | sent
  | full
  deriving DecidableEq, Repr

/-- Answer of `WaitingSender::poll` (xtra/src/chan/waiting_sender.rs:82-97). -/
inductive WaitPoll where
  | pending
  | delivered
  | closed
  deriving DecidableEq, Repr

/-- Answer of a poll of the `catty::Receiver` of the reply. `panic` is what it may do when it is polled
although it has already resolved (the crate is not part of this repository: anything may happen). -/
inductive ReplyPoll where
  | pending
  | value (r : Nat)
  | gone
  | panic
  deriving DecidableEq, Repr

/-- What the rest of the world answers during one poll of a send future. -/
structure Env where
  trySend : TrySend
  waiting : WaitPoll
  reply : ReplyPoll
  deriving DecidableEq, Repr

/-- `Sending` (xtra/src/send_future.rs:172-176); payloads are left out. -/
inductive Sending where
  | new
  | waiting
  | done
  deriving DecidableEq, Repr

/-- `FusedFuture::is_terminated` (xtra/src/send_future.rs:242-250). -/
def Sending.terminated : Sending → Bool
  | .done => true
  | _ => false

/-- The arm `Sending::WaitingToSend` of `poll` (xtra/src/send_future.rs:195-203, 227-235): `?` returns
with `Done` in place. -/
def pollWaiting (e : Env) : Sending × Out (Except Error Unit) :=
  match e.waiting with
  | .closed => (.done, .ready (.error .disconnected))
  | .delivered => (.done, .ready (.ok ()))
  | .pending => (.waiting, .pending)

/-- `Sending::poll` (xtra/src/send_future.rs:184-207, 216-239). The number says how often
`try_send_to_one` / `try_send_to_all` was called. -/
def pollSending (s : Sending) (e : Env) : Sending × Nat × Out (Except Error Unit) :=
  match s with
  | .new =>
    match e.trySend with
    | .disconnected => (.done, 1, .ready (.error .disconnected))
    | .sent => (.done, 1, .ready (.ok ()))
    | .full => ((pollWaiting e).1, 1, (pollWaiting e).2)
  | .waiting => ((pollWaiting e).1, 0, (pollWaiting e).2)
  | .done => (.done, 0, .panic)

/-- A `catty::Receiver`: whether it has already resolved. -/
inductive Reply where
  | live
  | resolved
  deriving DecidableEq, Repr

/-- `Receiver::poll` (xtra/src/send_future.rs:354-363). A receiver that has not resolved answers; one that
has may do anything. -/
def pollReply (r : Reply) (e : Env) : Reply × Out (Except Error Nat) :=
  match e.reply, r with
  | .pending, .live => (.live, .pending)
  | .pending, .resolved => (.resolved, .pending)
  | .value v, _ => (.resolved, .ready (.ok v))
  | .gone, _ => (.resolved, .ready (.error .interrupted))
  | .panic, .live => (.live, .pending)
  | .panic, .resolved => (.resolved, .panic)

/-- A `SendFuture` with the number of times it has entered the channel (ghost). -/
structure SendFut (S : Type) where
  sending : Sending
  state : S
  tries : Nat
  deriving DecidableEq, Repr

/-- `SendFuture<_, ResolveToHandlerReturn>` (xtra/src/send_future.rs:33, 321-336). -/
def pollRet (f : SendFut Reply) (e : Env) : SendFut Reply × Out (Except Error Nat) :=
  if f.sending.terminated then
    ({ f with state := (pollReply f.state e).1 }, (pollReply f.state e).2)
  else
    match pollSending f.sending e with
    | (s, n, .pending) => ({ f with sending := s, tries := f.tries + n }, .pending)
    | (s, n, .panic) => ({ f with sending := s, tries := f.tries + n }, .panic)
    | (s, n, .ready (.error err)) => ({ f with sending := s, tries := f.tries + n }, .ready (.error err))
    | (s, n, .ready (.ok ())) =>
      ({ sending := s, state := (pollReply f.state e).1, tries := f.tries + n }, (pollReply f.state e).2)

/-- `this.state.0.take().expect("polled after completion")` (xtra/src/send_future.rs:315-317). -/
def takeReceiver (f : SendFut (Option Reply)) : SendFut (Option Reply) × Out (Except Error Reply) :=
  match f.state with
  | some r => ({ f with state := none }, .ready (.ok r))
  | none => (f, .panic)

/-- `SendFuture<_, ResolveToReceiver>` (xtra/src/send_future.rs:38, 302-319). -/
def pollDetached (f : SendFut (Option Reply)) (e : Env) :
    SendFut (Option Reply) × Out (Except Error Reply) :=
  if f.sending.terminated then takeReceiver f
  else
    match pollSending f.sending e with
    | (s, n, .pending) => ({ f with sending := s, tries := f.tries + n }, .pending)
    | (s, n, .panic) => ({ f with sending := s, tries := f.tries + n }, .panic)
    | (s, n, .ready (.error err)) => ({ f with sending := s, tries := f.tries + n }, .ready (.error err))
    | (s, n, .ready (.ok ())) => takeReceiver { f with sending := s, tries := f.tries + n }

/-- `SendFuture<_, Broadcast>` (xtra/src/send_future.rs:41, 337-346). -/
def pollBcast (f : SendFut Unit) (e : Env) : SendFut Unit × Out (Except Error Unit) :=
  ({ f with sending := (pollSending f.sending e).1, tries := f.tries + (pollSending f.sending e).2.1 },
    (pollSending f.sending e).2.2)

/-- `SendFuture::detach` (xtra/src/send_future.rs:50-55, 370-372): the reply's receiver, in whatever
state, is wrapped. -/
def detach (f : SendFut Reply) : SendFut (Option Reply) := { f with state := some f.state }

/-- `Receiving` (xtra/src/recv_future.rs:62-69). -/
inductive Receiving where
  | new
  | waiting
  | done
  deriving DecidableEq, Repr

/-- `FusedFuture for ReceiveFuture` (xtra/src/recv_future.rs:186-196). -/
def Receiving.terminated : Receiving → Bool
  | .done => true
  | _ => false

/-- One turn of the loop in `Receiving::poll`: what `try_recv` (`new`) or the `WaitingReceiver`
(`waiting`) answers. -/
inductive Turn where
  /-- a message -/
  | msg (m : Nat)
  /-- `try_recv`: nothing to do, here is a `WaitingReceiver`; `WaitingReceiver`: still waiting -/
  | wait
  /-- the `WaitingReceiver` was woken for a broadcast that is no longer there -/
  | spurious
  deriving DecidableEq, Repr

/-- `Receiving::poll` (xtra/src/recv_future.rs:136-183): the loop, fed with the answers of the channel.
When the listed answers are used up the channel has nothing more: `try_recv` hands out a `WaitingReceiver`
and that one is still waiting. -/
def pollRecv : Receiving → List Turn → Receiving × Out Nat
  | .done, _ => (.done, .panic)
  | .new, .msg m :: _ => (.done, .ready m)
  | .new, _ :: ts => pollRecv .waiting ts
  | .waiting, .msg m :: _ => (.done, .ready m)
  | .waiting, .wait :: _ => (.waiting, .pending)
  | .waiting, .spurious :: ts => pollRecv .new ts
  | _, [] => (.waiting, .pending)

/-- What the handler's future does when it is polled. -/
inductive HandlerPoll where
  | pending
  | flow (brk : Bool)
  | panic
  deriving DecidableEq, Repr

/-- `State` of a `DispatchFuture` (xtra/src/dispatch_future.rs:105-116). -/
inductive Dispatch where
  | new
  | running
  | done
  deriving DecidableEq, Repr

/-- A `DispatchFuture` with ghosts: how often `handle` was called, what the handler's future has
answered so far (newest first). -/
structure DispatchFut where
  state : Dispatch
  handles : Nat
  polls : List HandlerPoll
  deriving DecidableEq, Repr

/-- The arm `State::Running` of `poll` (xtra/src/dispatch_future.rs:136-144): `Done` is in place while the
handler runs, so it stays when the handler panics. -/
def pollRunning (f : DispatchFut) (h : HandlerPoll) : DispatchFut × Out Bool :=
  match h with
  | .pending => ({ f with state := .running, polls := h :: f.polls }, .pending)
  | .flow b => ({ f with state := .done, polls := h :: f.polls }, .ready b)
  | .panic => ({ f with state := .done, polls := h :: f.polls }, .panic)

/-- `DispatchFuture::poll` (xtra/src/dispatch_future.rs:130-147). -/
def pollDispatch (f : DispatchFut) (h : HandlerPoll) : DispatchFut × Out Bool :=
  match f.state with
  | .new => pollRunning { f with state := .running, handles := f.handles + 1 } h
  | .running => pollRunning f h
  | .done => (f, .panic)

/-- `DispatchFuture::span` (xtra/src/dispatch_future.rs:78-86): starts the handler of an unpolled future. -/
def spanDispatch (f : DispatchFut) : DispatchFut :=
  match f.state with
  | .new => { f with state := .running, handles := f.handles + 1 }
  | _ => f

/-- `ActorJoinHandle(Option<EventListener>)` (xtra/src/address.rs:251, 253-267): `some` holds a listener.
`notified` is the listener's answer. -/
def pollJoin (l : Option Unit) (notified : Bool) : Option Unit × Out Unit :=
  match l with
  | some () => if notified then (none, .ready ()) else (some (), .pending)
  | none => (none, .ready ())

/-- A caller polls again and again: the final state and what it sees, in order. -/
def polls {S E α : Type} (poll : S → E → S × Out α) : S → List E → S × List (Out α)
  | s, [] => (s, [])
  | s, e :: es => ((polls poll (poll s e).1 es).1, (poll s e).2 :: (polls poll (poll s e).1 es).2)

/-- A freshly made future of `send` (xtra/src/send_future.rs:92-106, 110-126). -/
def freshRet : SendFut Reply := ⟨.new, .live, 0⟩

/-- A freshly made future of `send(..).detach()`. -/
def freshDetached : SendFut (Option Reply) := detach freshRet

/-- A freshly made future of `broadcast` (xtra/src/send_future.rs:129-147). -/
def freshBcast : SendFut Unit := ⟨.new, (), 0⟩

/-- A freshly made `DispatchFuture` (xtra/src/dispatch_future.rs:118-125). -/
def freshDispatch : DispatchFut := ⟨.new, 0, []⟩

end Xtra.Fuse
