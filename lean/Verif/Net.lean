import Verif.PropsHang
import Verif.PoolRun
/-!
# Networks of actors: handlers that await requests to other actors (C54), or `join` on them (C55)

Any number of channels (`xtra/src/chan.rs`), each with its pool of tasks executing `xtra::run` (`xtra/src/lib.rs:226-245`, `Verif/Pool.lean`).
While `started`, `handle` or `stopped` of an actor runs, it may send to addresses of any channel and await the answers, or that the message
is accepted, one after the other or several at once, and the same with broadcasts (`xtra/src/address.rs:183-192` `send`, `xtra/src/send_future.rs:178-240, 302-363` the awaiting). Which actor may
await what of which other one is a parameter (`ok`).

They may also give such a future to `xtra::select` or `xtra::join` (`xtra/src/lib.rs:301-328, 377-387`; the flag `joined`), which makes the
actor serve its mailbox while it waits; to any depth.

Simplifications: when `select` hands its future back (a nested handler stopped the actor), user code goes on awaiting it (this is what
`join` does, `lib.rs:382-386`), it does not drop it; the poll of an awaited future by the awaiting actor is a step of the channel that the future belongs to (`AutoC.await`); the
waker is any number. User code makes finitely many requests per invocation: the bound is chosen, arbitrarily, when it is called. What else user
code does with the channels is among the concurrent activity (`NStep.other`).
-/

set_option linter.unusedSimpArgs false

namespace Xtra

/-! ## Specification -/

/-- What somebody awaits: the value the handler of a request returns (`send(..).await`); that a request enters the mailbox
(`send(..).detach().await`); or that a broadcast does (`broadcast(..).await`). -/
inductive Want where
  | answer
  | accept
  | bcast
  deriving DecidableEq, Repr

def Want.bc : Want → Bool
  | .bcast => true
  | _ => false

/-- An await: the future `f` of message `i` of channel `p`; in the future given to `select` or `join`, or directly. -/
structure Await where
  p : Nat
  f : Nat
  i : Nat
  want : Want
  joined : Bool
  deriving DecidableEq, Repr

/-- What it awaits has happened. -/
def World.met (w : World) (f i : Nat) : Want → Prop
  | .answer => w.resolved f i false
  | .accept => w.resolved f i false ∨ .sendOk f i ∈ w.log
  | .bcast => w.resolved f i true

/-- What the running user code of a task is up to: it will make at most `fuel` further requests or broadcasts, and it awaits `wait`. -/
structure HSt where
  fuel : Nat
  wait : List Await
  deriving DecidableEq, Repr

/-- No user code runs. -/
def HSt.idle : HSt := ⟨0, []⟩

/-- A network: channel `p` with its tasks is `ch p`, and the user code of its `k`-th task is in the state `h p k`. -/
structure Net where
  ch : Nat → PCfg
  h : Nat → Nat → HSt

/-- The user code of task `k` runs. -/
def PCfg.busy (c : PCfg) (k : Nat) : Prop := ∃ T, c.ts[k]? = some T ∧ T.ph.inUser = true

/-- Some actor awaits the future `f` of channel `p`. -/
def Net.waited (N : Net) (p f : Nat) : Prop := ∃ q k i want jn, ⟨p, f, i, want, jn⟩ ∈ (N.h q k).wait

/-- Somebody awaits the future `f` of channel `p`: an actor, or a client that is not an actor (`Ext`). -/
def Net.awaited (N : Net) (Ext : Nat → Nat → Prop) (p f : Nat) : Prop := Ext p f ∨ N.waited p f

/-- The user code of task `k` is executed: it is not inside a call of `select`. -/
def PCfg.runs (c : PCfg) (k : Nat) : Prop := ∃ T, c.ts[k]? = some T ∧ c.onTop T

/-- The user code of task `k` is inside a call of `select`, which awaits a message and polls the future it was given
(`xtra/src/lib.rs:310-311`). -/
def PCfg.polls (c : PCfg) (k : Nat) : Prop :=
  ∃ T U r, c.ts[k]? = some T ∧ U ∈ c.ts ∧ U.covers T = true ∧ U.lvl = .sel ∧ U.ph = .waiting r

/-- `U` was a `select` called by the user code of `T` that is running, and it ended before its future did: the actor was told to stop, and it
returned the future (lib.rs:327; `join` awaits it then, lib.rs:385); or it was dropped. -/
def Task.cutShort (U T : Task) : Prop := U.lvl = .sel ∧ (U.ph = .done ∨ U.aborted = true) ∧ T.given = some U.i

/-- User code of task `k` makes a request: directly; or in the future given to `select`, which is polled; also after the `select` was cut short. -/
def PCfg.mayAsk (c : PCfg) (k : Nat) : Bool → Prop
  | false => c.runs k
  | true => c.polls k ∨ ∃ T, c.ts[k]? = some T ∧ c.onTop T ∧ ∃ U ∈ c.ts, U.cutShort T

/-- An await of task `k` is polled. -/
def PCfg.mayResume (c : PCfg) (k : Nat) (jn : Bool) : Prop := c.runs k ∨ (jn = true ∧ c.polls k)

/-- The tasks of a channel go from `c` to `c'`, the state of their user code from `h` to `h'`. -/
structure Gate (c c' : PCfg) (h h' : Nat → HSt) : Prop where
  /-- user code does not return while it awaits something; only if the task is dropped, its awaits go with it -/
  returns : ∀ k, c.busy k → ¬ c'.busy k → (h k).wait = [] ∨ ∃ T', c'.ts[k]? = some T' ∧ T'.aborted = true
  /-- it awaits nothing when it is called -/
  calls : ∀ k, c'.busy k → ¬ c.busy k → (h' k).wait = []
  keeps : ∀ k, c.busy k → c'.busy k → h' k = h k
  ends : ∀ k, ¬ c'.busy k → h' k = .idle
  /-- the future given to `select` does not complete while it awaits something -/
  futs : ∀ (l : Nat) (U U' : Task) (k : Nat) (T : Task) (x : Await), c.ts[l]? = some U → c'.ts[l]? = some U' → U.lvl = .sel → U'.lvl = .last → c.ts[k]? = some T → U.covers T = true →
    x ∈ (h k).wait → x.joined = false

def Net.setCh (N : Net) (p : Nat) (c : PCfg) : Net := { N with ch := fun q => if q = p then c else N.ch q }
def Net.setHs (N : Net) (p : Nat) (h : Nat → HSt) : Net := { N with h := fun q => if q = p then h else N.h q }
def Net.setH (N : Net) (p k : Nat) (x : HSt) : Net := N.setHs p (fun j => if j = k then x else N.h p j)

/-- `send` or `broadcast` is called on an address, giving the future number `s.w.objs.length`; `priority` (send_future.rs:65-69) may be called
on it, and `detach` (send_future.rs:50-55). -/
inductive Asked (s : Sys) : Want → Sys → Prop where
  | send {a : Nat} {s' : Sys} : s.step (.call (.send a)) = some s' → Asked s .answer s'
  | bcast {a : Nat} {s' : Sys} : s.step (.call (.broadcast a)) = some s' → Asked s .bcast s'
  | detach {s1 s' : Sys} : Asked s .answer s1 → s1.step (.call (.detach s.w.objs.length)) = some s' → Asked s .accept s'
  | priority {want : Want} {n : Nat} {s1 s' : Sys} : Asked s want s1 → s1.step (.call (.setPrio s.w.objs.length n)) = some s' → Asked s want s'

/-- Which actor may await what of which other one, directly or in the future given to `select` or `join`. -/
abbrev Allowed := Nat → Nat → Want → Bool → Prop

/-- User code of task `k` of channel `p` sends to an address of channel `j`, and begins to await the future. -/
inductive Net.Ask (ok : Allowed) (p : Nat) : Net → Net → Prop where
  | ask {N : Net} {k j n : Nat} {want : Want} {jn : Bool} {l : List Await} {s' : Sys} : ok p j want jn → (N.ch p).mayAsk k jn →
      N.h p k = ⟨n + 1, l⟩ → Asked (N.ch j).s want s' →
      Net.Ask ok p N ((N.setCh j { N.ch j with s := s' }).setH p k ⟨n, ⟨j, (N.ch j).s.w.objs.length, (N.ch j).s.w.resp.length, want, jn⟩ :: l⟩)

/-- What it awaited has happened: the awaiting user code of task `k` of channel `p` continues. -/
inductive Net.Resume (p : Nat) : Net → Net → Prop where
  | resume {N : Net} {k n : Nat} {x : Await} {l1 l2 : List Await} : N.h p k = ⟨n, l1 ++ x :: l2⟩ → (N.ch p).mayResume k x.joined →
      (N.ch x.p).s.w.met x.f x.i x.want → Net.Resume p N (N.setH p k ⟨n, l1 ++ l2⟩)

/-- User code of a task of channel `p` calls `select` (or `join`, lib.rs:377-387, which calls it). -/
inductive Net.Nest (p : Nat) : Net → Net → Prop where
  | nest {N : Net} {k i : Nat} {T : Task} : (N.ch p).ts[k]? = some T → (N.ch p).onTop T → T.given = some i →
      Net.Nest p N (N.setCh p { N.ch p with ts := (N.ch p).ts ++ [⟨i, T.b, .idle, [], [], false, .sel⟩] })

/-- Everything that can happen. Messages are received by the tasks only, and nobody but the actor itself disposes of a future it awaits. -/
inductive NStep (ok : Allowed) : Net → Net → Prop where
  | other {N : Net} {p : Nat} {a : Act} {s' : Sys} : (∀ T ∈ (N.ch p).ts, a.steals T = false) → (∀ i, a ≠ .call (.next i)) →
      (∀ f c, N.waited p f → a = .call c → c.polite f = true) → (N.ch p).s.step a = some s' →
      NStep ok N (N.setCh p { N.ch p with s := s' })
  | spawn {N : Net} {p i b n : Nat} : (N.ch p).s.w.objs[i]? = some (.mailbox b) → (∀ T ∈ (N.ch p).ts, T.i ≠ i) →
      NStep ok N ((N.setCh p { N.ch p with ts := (N.ch p).ts ++ [⟨i, b, .starting, [], [], false, .run⟩] }).setH p (N.ch p).ts.length ⟨n, []⟩)
  | task {N : Net} {p k : Nat} {T T' : Task} {s' : Sys} {h' : Nat → HSt} : (N.ch p).ts[k]? = some T → (N.ch p).onTop T → TStep (N.ch p).s T s' T' →
      Gate (N.ch p) ⟨s', (N.ch p).ts.set k T'⟩ (N.h p) h' → NStep ok N ((N.setCh p ⟨s', (N.ch p).ts.set k T'⟩).setHs p h')
  | nest {N N' : Net} {p : Nat} : N.Nest p N' → NStep ok N N'
  | ask {N N' : Net} {p : Nat} : N.Ask ok p N' → NStep ok N N'
  | resume {N N' : Net} {p : Nat} : N.Resume p N' → NStep ok N N'

/-- Everything that can happen after the channels were made. -/
inductive NRun (ok : Allowed) (caps : Nat → Option Nat) : Net → Prop where
  | new : NRun ok caps ⟨fun p => ⟨init (caps p), []⟩, fun _ _ => .idle⟩
  | step {N N' : Net} : NRun ok caps N → NStep ok N N' → NRun ok caps N'

/-- A step of channel `p` or of its actors: an API call in progress executes its next step; an actor that is not asleep goes on; somebody
who awaits a future of this channel polls it, if its waker was called; user code of an actor makes a request it is still to make; or it
continues because what it awaited has resolved. Clients make no new API calls. -/
inductive NAt (ok : Allowed) (Ext : Nat → Nat → Prop) (p : Nat) : Net → Net → Prop where
  | chan {N : Net} {c' : PCfg} {h' : Nat → HSt} : AutoC (N.awaited Ext p) (N.ch p) c' → Gate (N.ch p) c' (N.h p) h' →
      NAt ok Ext p N ((N.setCh p c').setHs p h')
  | ask {N N' : Net} : N.Ask ok p N' → NAt ok Ext p N N'
  | resume {N N' : Net} : N.Resume p N' → NAt ok Ext p N N'

/-- A step of one of the first `n` channels, or of their actors. -/
def NAuto (ok : Allowed) (Ext : Nat → Nat → Prop) (n : Nat) (N N' : Net) : Prop := ∃ p, p < n ∧ NAt ok Ext p N N'

/-- No task is dropped. -/
def Net.NoDrop (N N' : Net) : Prop := ∀ p, Xtra.NoDrop (N.ch p) (N'.ch p)

/-- Finitely many such steps, in none of which a task is dropped. -/
inductive NAutos (ok : Allowed) (Ext : Nat → Nat → Prop) (n : Nat) : Net → Net → Prop where
  | refl {N : Net} : NAutos ok Ext n N N
  | step {N N1 N2 : Net} : NAuto ok Ext n N N1 → N.NoDrop N1 → NAutos ok Ext n N1 N2 → NAutos ok Ext n N N2

/-- Finitely many such steps, and calls of `select` by user code. -/
inductive NMoves (ok : Allowed) (Ext : Nat → Nat → Prop) (n : Nat) : Net → Net → Prop where
  | refl {N : Net} : NMoves ok Ext n N N
  | step {N N1 N2 : Net} : NAuto ok Ext n N N1 → N.NoDrop N1 → NMoves ok Ext n N1 N2 → NMoves ok Ext n N N2
  | nest {N N1 N2 : Net} {p : Nat} : N.Nest p N1 → NMoves ok Ext n N1 N2 → NMoves ok Ext n N N2

/-- No `select` called by user code that is running was cut short. -/
def Net.uncut (n : Nat) (N : Net) : Prop := ∀ p, p < n → ∀ T ∈ (N.ch p).ts, ∀ U ∈ (N.ch p).ts, ¬ U.cutShort T

/-- Nothing more happens in the first `n` channels without a new API call by a client that is not an actor, or without a task being dropped. -/
def Net.final (ok : Allowed) (Ext : Nat → Nat → Prop) (n : Nat) (N : Net) : Prop :=
  ¬ ∃ N', NAuto ok Ext n N N' ∧ N.NoDrop N'

/-- Nothing is going on in a channel: no API call is being executed, every task has returned or sleeps in `next().await`, and everybody who
awaits a future (`A`) sleeps. -/
def PCfg.atRestS (A : Nat → Prop) (c : PCfg) : Prop := c.atRest ∧ ∀ f, A f → c.s.w.dozes f

/-- Nothing is going on in the first `n` channels: no API call is being executed, every task has returned or sleeps in `next().await`, no
user code of an actor runs, and everybody who awaits a future sleeps. -/
def Net.atRest (Ext : Nat → Nat → Prop) (n : Nat) (N : Net) : Prop :=
  ∀ p, p < n → (N.ch p).atRestS (N.awaited Ext p) ∧ ∀ k, N.h p k = .idle

/-- The channel has an actor that has not terminated; or nobody refers to a mailbox of it any more, and no send slipped in after the last
mailbox was dropped (`C11_refuted`). -/
def PCfg.served (c : PCfg) : Prop := (∃ T ∈ c.ts, T.ph ≠ .done) ∨ (c.s.w.mailboxRefs = 0 ∧ ∀ i, Ev.late i ∉ c.s.w.log)

/-- The same for broadcasts: every mailbox ever made has an actor that has not terminated; or nobody refers to a
mailbox any more, and no send slipped in. (That one dropped mailbox may block the broadcasts to the others is `C30_refuted`.) -/
def PCfg.servedAll (c : PCfg) : Prop :=
  (∀ b, b < c.s.w.bq.length → ∃ T ∈ c.ts, T.b = b ∧ T.ph ≠ .done) ∨
  (c.s.w.mailboxRefs = 0 ∧ ∀ i, Ev.late i ∉ c.s.w.log)

/-- Every one of the first `n` channels is served, also for broadcasts if some actor may await those. -/
def Net.served (ok : Allowed) (n : Nat) (N : Net) : Prop :=
  ∀ p, p < n → (N.ch p).served ∧ ((∃ q jn, ok q p .bcast jn) → (N.ch p).servedAll)

end Xtra
