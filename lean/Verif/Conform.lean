import Verif.Model
import Verif.Address
import Verif.Span
/-!
# The repository's own tests, replayed on the model

Not theorems: a check of the model against the code. Each script below is one test of
`/repo/xtra/tests/basic.rs` (lines cited), call by call, with its assertions. The tests pass upstream; they have to pass on the model too.
A script is an execution of the model (`play_reachable`), in which every API call runs to its end before the next one starts, which is what the
single-threaded test runtime does.

Objects are numbered as they are made; 0 is the address and 1 the mailbox of the new channel. The waker of every poll is 0
(`noop_waker`).
-/

namespace Xtra.Conform
open Xtra

/-- A line of a test. -/
inductive Line where
  /-- call the library -/
  | run (c : Call)
  /-- call the library; which call it is depends on what happened so far -/
  | dyn (c : World → Call)
  /-- `assert!` -/
  | check (p : World → Bool)

/-- Let thread `t` run to its end. -/
def drainTh : Nat → Sys → Nat → Option Sys
  | 0, s, t => if s.th[t]? = some [] then some s else none
  | n + 1, s, t =>
    match s.th[t]? with
    | some [] => some s
    | _ => match s.step (.exec t) with
      | some s' => drainTh n s' t
      | none => none

def Sys.api (s : Sys) (c : Call) : Option Sys :=
  match s.step (.call c) with
  | some s' => drainTh 30 s' s.th.length
  | none => none

/-- Play a test; `none` if a call is not possible or an assertion fails. -/
def play : Sys → List Line → Option Sys
  | s, [] => some s
  | s, .run c :: ls => (Sys.api s c).bind fun s' => play s' ls
  | s, .dyn c :: ls => (Sys.api s (c s.w)).bind fun s' => play s' ls
  | s, .check p :: ls => if p s.w then play s ls else none

theorem drainTh_reachable {cap : Option Nat} {n t : Nat} {s s' : Sys} (hr : Reachable cap s) (h : drainTh n s t = some s') : Reachable cap s' := by
  induction n generalizing s with
  | zero => simp only [drainTh] at h; split at h <;> simp_all
  | succ n ih =>
    simp only [drainTh] at h
    split at h
    · simp at h; exact h ▸ hr
    · split at h
      · rename_i s1 h1; exact ih (.step hr h1) h
      · simp at h

theorem api_reachable {cap : Option Nat} {c : Call} {s s' : Sys} (hr : Reachable cap s) (h : Sys.api s c = some s') : Reachable cap s' := by
  simp only [Sys.api] at h
  split at h
  · rename_i s1 h1; exact drainTh_reachable (.step hr h1) h
  · simp at h

/-- What a script plays is an execution of the model. -/
theorem play_reachable {cap : Option Nat} {ls : List Line} {s s' : Sys} (hr : Reachable cap s) (h : play s ls = some s') : Reachable cap s' := by
  induction ls generalizing s with
  | nil => simp [play] at h; exact h ▸ hr
  | cons l ls ih =>
    cases l with
    | run c =>
      simp only [play, Option.bind_eq_some_iff] at h
      obtain ⟨s1, h1, h2⟩ := h
      exact ih (api_reachable hr h1) h2
    | dyn c =>
      simp only [play, Option.bind_eq_some_iff] at h
      obtain ⟨s1, h1, h2⟩ := h
      exact ih (api_reachable hr h1) h2
    | check p =>
      simp only [play] at h
      split at h
      · exact ih hr h
      · simp at h

/-- The test passes on a new channel. -/
def passes (cap : Option Nat) (ls : List Line) : Bool := (play (init cap) ls).isSome

/-! ### Phrases -/

/-- The last thing that happened. -/
def said (e : Ev) : Line := .check fun w => w.log.head? == some e
/-- The last thing that happened is that future `f` is not ready. -/
def pending (f : Nat) : Line := .check fun w => match w.log.head? with
  | some (.sendPending g _ _) => f == g
  | some (.recvPending g _) => f == g
  | some (.joinPending g _) => f == g
  | _ => false
/-- The last thing that happened is that the message of the send future `f` was accepted (`Ok`). -/
def accepted (f : Nat) : Line := .check fun w => match w.log.head? with
  | some (.sendOk g _) => f == g
  | _ => false

/-- `a.send(..).detach()`, polled once; the future (then the receiver) is object `f`. -/
def sendD (a f : Nat) : List Line := [.run (.send a), .run (.detach f), .run (.pollSend f 0)]
/-- `a.send(..).priority(p).detach()`, polled once. -/
def sendP (a f p : Nat) : List Line := [.run (.send a), .run (.setPrio f p), .run (.detach f), .run (.pollSend f 0)]
/-- `a.broadcast(..).priority(p)`, polled once. -/
def bcastP (a f p : Nat) : List Line := [.run (.broadcast a), .run (.setPrio f p), .run (.pollSend f 0)]
/-- `yield_once(mailbox, actor)` (lib.rs:262-276) with a message there: receive future `r`, handler result `v`. -/
def yield1 (mb r v : Nat) : List Line := [.run (.next mb), .run (.pollRecv r 0), .run (.dispatch r), .run (.finish r v)]
/-- The same up to the handler. -/
def yieldTo (mb r : Nat) : List Line := [.run (.next mb), .run (.pollRecv r 0), .run (.dispatch r)]

def handledIds (w : World) : List Nat := w.log.reverse.filterMap fun
  | .handled i _ => some i
  | _ => none
/-- The messages received, with priorities, oldest first. -/
def received (w : World) : List (Bool × Nat) := w.log.reverse.filterMap fun
  | .recv _ _ (.one m) => some (false, match m.prio with | .valued p => p | .shutdown => 0)
  | .recv _ _ (.all m) => some (true, match m.prio with | .valued p => p | .shutdown => 0)
  | _ => none

/-! ### The tests -/

/-- `accumulate_to_ten` (basic.rs:60-76): ten `Inc`, each received and counted, then `Report` answers 10. The actor's counter is the number of
handled messages. -/
def accumulate : List Line :=
  ((List.range 10).flatMap fun k =>
    sendD 0 (2 + 2 * k) ++ [accepted (2 + 2 * k)] ++ yield1 1 (3 + 2 * k) 0 ++ [.run (.pollReply (2 + 2 * k) 0), said (.replyOk (2 + 2 * k) k 0)]) ++
  [.run (.send 0), .run (.pollSend 22 0), pending 22] ++ yieldTo 1 23 ++
  [.dyn fun w => .finish 23 (handledIds w).length, .run (.pollSend 22 0), said (.replyOk 22 10 10)]

/-- `actor_stops_on_last_drop_of_address` (basic.rs:99-111): the actor runs and waits; the last address is dropped; the actor is told to stop. -/
def stopsOnLastDrop : List Line :=
  [.run (.next 1), .run (.pollRecv 2 0), pending 2, .run (.downgrade 0), .run (.join 3), .run (.pollJoin 4 0), pending 4,
   .run (.dropAddr 0), .run (.pollRecv 2 0), said (.recv 2 0 .shutdown), .run (.dispatch 2), .check (fun w => w.log.head? == some (.flow 0 .shutdown true)),
   .run (.dropMailbox 1), .run (.isConnected 3), said (.connected 3 false), .run (.pollJoin 4 0), said (.joined 4)]

/-- `actor_stops_on_stop_self_message` (basic.rs:113-126). -/
def stopsOnStopSelf : List Line :=
  [.run (.next 1), .run (.pollRecv 2 0), pending 2, .run (.downgrade 0), .run (.join 3)] ++ sendD 0 5 ++ [accepted 5,
   .run (.pollRecv 2 0), .run (.dispatch 2), .run (.stopSelf 2), .run (.finish 2 0), said (.flow 0 (.one ⟨0, .valued 0⟩) true),
   .run (.dropMailbox 1), .run (.isConnected 3), said (.connected 3 false), .run (.isConnected 0), said (.connected 0 false),
   .run (.pollJoin 4 0), said (.joined 4)]

/-- `actor_stops_on_stop_all_message` (basic.rs:128-141): after the handler called `stop_all` the loop goes on and receives the notice. -/
def stopsOnStopAll : List Line :=
  [.run (.next 1), .run (.pollRecv 2 0), pending 2, .run (.downgrade 0), .run (.join 3)] ++ sendD 0 5 ++ [accepted 5,
   .run (.pollRecv 2 0), .run (.dispatch 2), .run (.stopAll 2), .run (.finish 2 0), said (.flow 0 (.one ⟨0, .valued 0⟩) false)] ++
  yieldTo 1 6 ++ [said (.flow 0 (.all ⟨1, .shutdown⟩) true),
   .run (.dropMailbox 1), .run (.isConnected 3), said (.connected 3 false), .run (.isConnected 0), said (.connected 0 false),
   .run (.pollJoin 4 0), said (.joined 4)]

/-- `actor_stops_on_last_drop_of_address_even_if_not_yet_running` (basic.rs:143-154). -/
def stopsBeforeRunning : List Line :=
  [.run (.downgrade 0), .run (.join 2), .run (.dropAddr 0)] ++ yieldTo 1 4 ++ [said (.flow 0 .shutdown true), .run (.dropMailbox 1),
   .run (.isConnected 2), said (.connected 2 false), .run (.pollJoin 3 0), said (.joined 3)]

/-- `actor_stops_on_stop_message_even_if_sent_before_started` (basic.rs:156-168). -/
def stopSentBeforeStart : List Line :=
  [.run (.downgrade 0), .run (.join 2)] ++ sendD 0 4 ++ [accepted 4] ++ yieldTo 1 5 ++ [.run (.stopSelf 5), .run (.finish 5 0),
   said (.flow 0 (.one ⟨0, .valued 0⟩) true), .run (.dropMailbox 1), .run (.isConnected 2), said (.connected 2 false),
   .run (.isConnected 0), said (.connected 0 false), .run (.pollJoin 3 0), said (.joined 3)]

/-- `handle_left_messages` (basic.rs:170-181). -/
def leftMessages : List Line :=
  ((List.range 10).flatMap fun k => sendD 0 (2 + k) ++ [accepted (2 + k), .run (.dropReply (2 + k))]) ++ [.run (.dropAddr 0)] ++
  ((List.range 10).flatMap fun k => yield1 1 (12 + k) 0) ++ yieldTo 1 22 ++
  [said (.flow 0 .shutdown true), .check fun w => (handledIds w).length == 10]

/-- `actor_can_be_restarted`, first part (basic.rs:183-198): five requests awaited one after the other, then `stop_self`. -/
def restarted1 : List Line :=
  ((List.range 5).flatMap fun k => [.run (.send 0), .run (.pollSend (2 + 2 * k) 0), pending (2 + 2 * k)] ++ yield1 1 (3 + 2 * k) 0 ++
    [.run (.pollSend (2 + 2 * k) 0), said (.replyOk (2 + 2 * k) k 0)]) ++
  [.run (.send 0), .run (.pollSend 12 0)] ++ yieldTo 1 13 ++ [.check (fun w => (handledIds w).length == 5), .run (.stopSelf 13), .run (.finish 13 0),
   said (.flow 0 (.one ⟨5, .valued 0⟩) true)]

/-- `actor_can_be_restarted`, second part (basic.rs:200-222): of two actors that share the mailbox the one that runs handles the five requests
and calls `stop_all`; the other one, not polled before, handles none of the five later messages. -/
def restarted : List Line :=
  [.run (.cloneMailbox 1), .run (.cloneAddr 0)] ++
  ((List.range 5).flatMap fun k => [.run (.send 3), .run (.pollSend (4 + 2 * k) 0), pending (4 + 2 * k)] ++ yield1 2 (5 + 2 * k) 0 ++
    [.run (.pollSend (4 + 2 * k) 0), said (.replyOk (4 + 2 * k) k 0)]) ++
  [.run (.send 3), .run (.pollSend 14 0)] ++ yieldTo 2 15 ++ [.run (.stopAll 15), .run (.finish 15 0), said (.flow 1 (.one ⟨5, .valued 0⟩) false)] ++
  yieldTo 2 16 ++ [said (.flow 1 (.all ⟨6, .shutdown⟩) true), .run (.dropMailbox 2), .check (fun w => (handledIds w).length == 6),
   .run (.pollSend 14 0), said (.replyOk 14 5 0), .run (.dropAddr 3), .run (.isConnected 0), said (.connected 0 true)] ++
  ((List.range 5).flatMap fun k => sendD 0 (17 + k) ++ [accepted (17 + k), .run (.dropReply (17 + k))]) ++
  yieldTo 1 22 ++ [said (.flow 0 (.all ⟨6, .shutdown⟩) true), .run (.dropMailbox 1), .check (fun w => (handledIds w).length == 6),
   .run (.isConnected 0), said (.connected 0 false)]

/-- `single_actor_on_address_with_stop_self_returns_disconnected_on_stop` (basic.rs:225-233). -/
def stopSelfDisconnects : List Line :=
  sendD 0 2 ++ yieldTo 1 3 ++ [.run (.stopSelf 3), .run (.finish 3 0), .run (.dropMailbox 1), .run (.join 0), .run (.pollJoin 4 0), said (.joined 4),
   .run (.isConnected 0), said (.connected 0 false)]

/-- `two_actors_on_address_with_stop_self` (basic.rs:235-248); with `alive` a third mailbox is kept (basic.rs:250-265). -/
def twoActors (alive : Bool) : List Line :=
  (if alive then [.run (.cloneMailbox 1), .run (.cloneMailbox 1), .run (.next 2), .run (.pollRecv 4 0), .run (.next 3), .run (.pollRecv 5 0)]
   else [.run (.cloneMailbox 1), .run (.cloneMailbox 1), .run (.dropMailbox 1), .run (.next 2), .run (.pollRecv 4 0), .run (.next 3), .run (.pollRecv 5 0)]) ++
  [.run (.send 0), .run (.pollSend 6 0), .run (.pollRecv 4 0), .run (.dispatch 4), .run (.stopSelf 4), .run (.finish 4 0), .run (.dropMailbox 2),
   .run (.pollSend 6 0), said (.replyOk 6 0 0), .run (.isConnected 0), said (.connected 0 true),
   .run (.send 0), .run (.pollSend 7 0), .run (.pollRecv 5 0), .run (.dispatch 5), .run (.stopSelf 5), .run (.finish 5 0), .run (.dropMailbox 3),
   .run (.pollSend 7 0), said (.replyOk 7 1 0), .run (.isConnected 0), said (.connected 0 alive)]

/-- `receiving_async_on_address_returns_immediately_after_dispatch` (basic.rs:287-298; the same for message channels, 300-311). -/
def receivingAsync : List Line :=
  [.run (.next 1), .run (.pollRecv 2 0), pending 2] ++ sendD 0 3 ++ [accepted 3, .run (.pollReply 3 0), pending 3, .run (.pollRecv 2 0),
   .run (.dispatch 2), .run (.pollReply 3 0), pending 3, .run (.finish 2 7), .run (.pollReply 3 0), said (.replyOk 3 0 7)]

/-- `handle_order` (basic.rs:373-412). -/
def handleOrder : List Line :=
  sendP 0 2 0 ++ sendP 0 3 1 ++ sendP 0 4 2 ++ bcastP 0 5 4 ++ bcastP 0 6 5 ++ bcastP 0 7 3 ++ sendP 0 8 4 ++ bcastP 0 9 5 ++ [.run (.dropAddr 0)] ++
  ((List.range 8).flatMap fun k => yield1 1 (10 + k) 0) ++ yieldTo 1 18 ++
  [said (.flow 0 .shutdown true), .check fun w => (received w).map (·.2) == [5, 5, 4, 4, 3, 2, 1, 0]]

/-- `waiting_sender_order` (basic.rs:414-468). -/
def waitingSenderOrder : List Line :=
  sendP 0 2 1 ++ [accepted 2, .run (.dropReply 2)] ++ sendP 0 3 1 ++ [pending 3] ++ sendP 0 4 2 ++ [pending 4] ++ yield1 1 5 0 ++
  [.run (.pollSend 3 0), pending 3, .run (.pollSend 4 0), accepted 4] ++
  bcastP 0 6 3 ++ [accepted 6] ++ bcastP 0 7 4 ++ [pending 7] ++ bcastP 0 8 5 ++ [pending 8] ++ yield1 1 9 0 ++
  [.run (.pollSend 7 0), pending 7, .run (.pollSend 8 0), accepted 8]

/-- `set_priority_msg_channel` (basic.rs:470-504): `priority` before and after `detach`. -/
def setPriority : List Line :=
  sendD 0 2 ++ sendP 0 3 1 ++ [.run (.send 0), .run (.detach 4), .run (.setPrio 4 2), .run (.pollSend 4 0), .run (.dropAddr 0)] ++
  ((List.range 3).flatMap fun k => yield1 1 (5 + k) 0) ++ yieldTo 1 8 ++
  [said (.flow 0 .shutdown true), .check fun w => received w == [(false, 2), (false, 1), (false, 0)]]

/-- `broadcast_tail_advances_bound_1` (basic.rs:506-615): mailbox 2 is `indlovu`'s, mailbox 1 `ngwevu`'s; `indlovu` runs a loop, so that its
receive future waits after each message. -/
def tailBound1 : List Line :=
  [.run (.cloneMailbox 1)] ++ bcastP 0 3 0 ++ [accepted 3] ++ bcastP 0 4 0 ++ [pending 4, .run (.dropSend 4)] ++ bcastP 0 5 0 ++ [pending 5] ++
  -- indlovu polls: it handles one and waits
  yield1 2 6 0 ++ [.run (.next 2), .run (.pollRecv 7 0), pending 7] ++ yield1 1 8 0 ++
  bcastP 0 9 0 ++ [pending 9, .run (.dropSend 9), .run (.pollSend 5 0), accepted 5] ++
  [.run (.pollRecv 7 0), .run (.dispatch 7), .run (.finish 7 0), .run (.next 2), .run (.pollRecv 10 0), pending 10] ++ yield1 1 11 0 ++
  bcastP 0 12 0 ++ [accepted 12] ++ bcastP 0 13 1 ++ [pending 13] ++ bcastP 0 14 2 ++ [pending 14] ++
  -- indlovu's poll handles the old broadcast and, since that makes room, `greater` at once
  yield1 1 15 0 ++ [.run (.pollRecv 10 0), .run (.dispatch 10), .run (.finish 10 0)] ++ yield1 2 16 0 ++ [.run (.next 2), .run (.pollRecv 17 0),
   pending 17, .run (.pollSend 13 0), pending 13, .run (.pollSend 14 0), accepted 14] ++
  yield1 1 18 0 ++ [.run (.pollRecv 17 0), .run (.dispatch 17), .run (.finish 17 0), .run (.next 2), .run (.pollRecv 19 0), pending 19,
   .run (.pollSend 13 0), accepted 13, .run (.broadcast 0), .run (.pollSend 20 0), pending 20]

/-- `broadcast_tail_advances_bound_2` (basic.rs:617-647) if the other actor `runs`, `broadcast_tail_does_not_advance_unless_both_handle`
(basic.rs:649-679) if it does not. -/
def tailBound2 (runs : Bool) : List Line :=
  [.run (.cloneMailbox 1)] ++ bcastP 0 3 0 ++ [accepted 3] ++ bcastP 0 4 0 ++ [accepted 4] ++ yield1 1 5 0 ++
  (if runs then yield1 2 6 0 ++ yield1 2 7 0 ++ bcastP 0 8 0 ++ [accepted 8] else bcastP 0 6 0 ++ [pending 6])

/-- `address_send_exercises_backpressure`, first part (basic.rs:706-733). -/
def backpressure1 : List Line :=
  sendD 0 2 ++ [accepted 2] ++ sendD 0 3 ++ [pending 3, .run (.dropSend 3)] ++ yield1 1 4 0 ++ sendD 0 5 ++ [accepted 5] ++ yield1 1 6 0

/-- The second part (basic.rs:735-788). -/
def backpressure2 : List Line :=
  sendP 0 2 1 ++ [accepted 2] ++ sendP 0 3 1 ++ [pending 3, .run (.dropSend 3)] ++ yield1 1 4 0 ++ sendP 0 5 1 ++ [accepted 5] ++
  bcastP 0 6 2 ++ [accepted 6] ++ bcastP 0 7 1 ++ [pending 7, .run (.dropSend 7)] ++ yield1 1 8 0 ++ bcastP 0 9 2 ++ [accepted 9]

/-- `address_debug`, `message_channel_debug` (basic.rs:791-827): the two numbers printed (`addresses`, `mailboxes`) are the counters. -/
def addressDebug : List Line :=
  [.run (.cloneAddr 0), .run (.downgrade 2), .check fun w => w.sc == 2 && w.rcv == 1]

/-- `timeout_returns_interrupted` (basic.rs:897-956): the timeout drops the future that runs the handler. -/
def timeoutInterrupted : List Line :=
  [.run (.next 1), .run (.pollRecv 2 0), pending 2] ++ sendD 0 3 ++ [accepted 3, .run (.pollRecv 2 0), .run (.dispatch 2), .run (.finish 2 1),
   .run (.pollReply 3 0), said (.replyOk 3 0 1),
   .run (.next 1), .run (.pollRecv 4 0), pending 4, .run (.send 0), .run (.pollSend 5 0), pending 5, .run (.pollRecv 4 0), .run (.dispatch 4),
   .run (.pollSend 5 0), pending 5, .run (.dropDispatch 4), .run (.pollSend 5 0), said (.replyInt 5 1)] ++
  sendD 0 6 ++ [accepted 6] ++ yield1 1 7 2 ++ [.run (.pollReply 6 0), said (.replyOk 6 2 2),
   .run (.downgrade 0), .run (.join 0), .run (.dropAddr 0)] ++ yieldTo 1 10 ++ [said (.flow 0 .shutdown true), .run (.dropMailbox 1),
   .run (.pollJoin 9 0), said (.joined 9), .run (.send 8), .run (.pollSend 11 0), said (.sendErr 11 3)]

/-- `no_sender_returns_disconnected` (basic.rs:958-963). -/
def noSender : List Line := [.run (.dropAddr 0), .run (.address 1), .run (.isConnected 2), said (.connected 2 false)]

/-- `receive_future_can_dispatch_in_one_poll` (basic.rs:965-973). -/
def onePoll : List Line := sendD 0 2 ++ [.run (.next 1), .run (.pollRecv 3 0), said (.recv 3 0 (.one ⟨0, .valued 0⟩))]

/-- `receive_future_can_dispatch_in_one_poll_after_it_has_been_polled` (basic.rs:975-988). -/
def onePollAfterPoll : List Line :=
  [.run (.next 1), .run (.pollRecv 2 0), pending 2] ++ sendD 0 3 ++ [accepted 3, .run (.pollRecv 2 0), said (.recv 2 0 (.one ⟨0, .valued 0⟩))]

/-- `scoped_task` (basic.rs:829-863). A scoped task polls its join handle first and ends with `None` if that is ready, otherwise it polls its
own future. Part 1: connected, the handle is pending. -/
def scoped1 : List Line := [.run (.join 0), .run (.pollJoin 2 0), pending 2]
/-- Part 2: a weak address of an actor that ended after the last strong address was dropped. -/
def scoped2 : List Line :=
  [.run (.downgrade 0), .run (.dropAddr 0)] ++ yieldTo 1 3 ++ [said (.flow 0 .shutdown true), .run (.dropMailbox 1), .run (.join 2),
   .run (.pollJoin 4 0), said (.joined 4)]
/-- Part 3: a strong address of an actor that stopped itself. -/
def scoped3 : List Line :=
  sendD 0 2 ++ [accepted 2] ++ yieldTo 1 3 ++ [.run (.stopSelf 3), .run (.finish 3 0), .run (.dropMailbox 1), .run (.join 0),
   .run (.pollJoin 4 0), said (.joined 4)]
/-- Part 4: the mailbox was dropped. -/
def scoped4 : List Line := [.run (.dropMailbox 1), .run (.join 0), .run (.pollJoin 2 0), said (.joined 2)]
/-- Part 5: the mailbox is dropped between two polls. -/
def scoped5 : List Line := [.run (.join 0), .run (.pollJoin 2 0), pending 2, .run (.dropMailbox 1), .run (.pollJoin 2 0), said (.joined 2)]

def suite : List (Option Nat × List Line) :=
  [(none, accumulate), (none, stopsOnLastDrop), (none, stopsOnStopSelf), (none, stopsOnStopAll), (none, stopsBeforeRunning),
   (none, stopSentBeforeStart), (none, leftMessages), (none, restarted1), (none, restarted), (none, stopSelfDisconnects), (none, twoActors false),
   (none, twoActors true), (none, receivingAsync), (none, handleOrder), (some 1, waitingSenderOrder), (none, setPriority), (some 1, tailBound1),
   (some 2, tailBound2 true), (some 2, tailBound2 false), (some 1, backpressure1), (some 1, backpressure2), (none, addressDebug),
   (none, timeoutInterrupted), (none, noSender), (none, onePoll), (none, onePollAfterPoll), (none, scoped1), (none, scoped2), (none, scoped3), (none, scoped4),
   (none, scoped5)]

set_option maxRecDepth 20000 in
/-- The whole suite passes. -/
example : suite.all (fun x => passes x.1 x.2) = true := by decide +kernel

/-- And an assertion that does not hold makes a test fail: the order `handle_order` asserts, with one pair of priorities swapped. -/
example : passes none (handleOrder ++ [.check fun w => (received w).map (·.2) == [5, 5, 4, 4, 2, 3, 1, 0]]) = false := by decide +kernel

/-- `test_addr_cmp_hash_eq` (basic.rs:865-888). -/
example : let a1 : Addr := ⟨1, .strong⟩; let a2 : Addr := ⟨2, .strong⟩; let d : Addr := ⟨1, .weak⟩
    a1.eq a2 = false ∧ a1.eq d = false ∧ a1.eq a1 = true ∧ a1.sameActor a1 = true ∧ a1.sameActor d = true ∧ a1.sameActor a2 = false ∧
    a1.partialCmp d = some .gt := by decide

/-- `assert_send_is_child_of_span` (tests/instrumentation.rs:35-52), with `on`: inside the handler the current span is the handler's, whose parent
is the request's, whose parent is the span of the sender (100). `assert_handler_span_is_child_of_caller_span_with_min_level_info` (54-66), without:
inside the handler the current span is the sender's. -/
example : let h : Span.Handler Unit Unit Unit := ⟨fun _ => (), fun _ _ => (some false, (), ())⟩
    let go := fun on =>
      let i := Span.Instr.started on (some 100) []
      let r := Span.run h (Span.DF.new (some ((), i.1))) i.2 () [.poll on none]
      (r.1, r.2.2.1)
    go true = ([.poll (.ready false) [some 2]], [(.request, some 100), (.waiting, some 0), (.handler, some 0)]) ∧
    go false = ([.poll (.ready false) [some 100]], []) := by decide

end Xtra.Conform
