import Verif.Util
/-!
# Many channels, many threads: user code and locks (C41, C53)

`Reentrant.lean` looks at one thread dropping the last mailbox of one channel. Here there are arbitrarily many channels and threads.
The messages waiting in a channel own references to channels (their own or others). User code — destructors of messages, wakers —
runs while a channel's mutex is held:

* destroying the last mailbox of a channel destroys the messages waiting in it (`shutdown_waiting_senders`, `xtra/src/chan.rs:244-259`);
* critical sections look into the broadcast queues of the mailboxes and into parked sends through a temporary `Weak::upgrade`
  (`longest_broadcast_queue`, `send_broadcast`, chan.rs:357-383; `waiting_sender::Handle::{priority, take_message}`,
  chan/waiting_sender.rs:31-45, 71-79). If the mailbox or the send future is dropped meanwhile by another thread, the temporary
  reference is the last one, and its release destroys the messages;
* critical sections invoke the wakers of parked receivers and senders (`notify_new_message`, `notify_new_broadcast`, `take_message`,
  `Handle::drop`), and a waker may do anything: call the library, or destroy the task it belongs to with all it owns.

Destroying a reference may lock the channel it refers to (`on_sender_dropped` → `shutdown_waiting_receivers`, `chan.rs:82-91, 210-231`;
`on_receiver_dropped` → `shutdown_waiting_senders`, `chan.rs:64-73`). A thread that needs a locked mutex blocks.

Not modelled: what else the critical sections do (`Model.lean`); the spin locks inside broadcast queues and parked sends; the
destruction of a channel itself (it holds no lock).
-/

namespace Xtra.Multi

/-- A reference owned by a message (or by a thread's local variable). -/
inductive Own where
  /-- a strong address of channel `p`, or anything containing one -/
  | strong (p : Nat)
  /-- mailbox `b`, or a receive future or received message of it (its channel is given by `Cfg.home`) -/
  | mailbox (b : Nat)
  /-- the future of a send parked in the channel `home b` because it was full (`SendFuture` in state `WaitingToSend`) -/
  | send (b : Nat)
  /-- a weak address, or anything without references to channels -/
  | other
  deriving DecidableEq, Repr

/-- Actions of a thread. -/
inductive Instr where
  /-- destroy a reference -/
  | drop (o : Own)
  /-- `chan.lock()` -/
  | lock (p : Nat)
  /-- the guard goes out of scope -/
  | unlock (p : Nat)
  /-- the guard goes out of scope; then the first message taken from the queue in the critical section is used up -/
  | unlockTake (p : Nat)
  /-- a message owning `o` is put into the queue (chan.rs:105-133, 286-295) -/
  | put (p : Nat) (o : Own)
  /-- `unicast_queue.clear(); waiting_send_to_one.clear(); waiting_send_to_all.clear()` (chan.rs:252-258) -/
  | clear (p : Nat)
  /-- drop of the handle of a parked send: its message is destroyed unless its future is gone (chan/waiting_sender.rs:48-65) -/
  | close (b : Nat)
  /-- `Weak::upgrade` of the broadcast queue or parked send `b` -/
  | upgrade (b : Nat)
  /-- drop of an `Arc` of the broadcast queue or parked send `b` -/
  | release (b : Nat)
  deriving DecidableEq, Repr

/-- State. Broadcast queues and parked sends are called cells; the broadcast queue of mailbox `b` is cell `b`. -/
structure Cfg where
  /-- channel of each cell -/
  home : Nat → Nat
  /-- `Chan::sender_count` -/
  sc : Nat → Nat
  /-- `Chan::receiver_count` -/
  rcv : Nat → Nat
  /-- the thread holding `Chan::chan` -/
  owner : Nat → Option Nat
  /-- strong count of the `Arc` of each cell -/
  arc : Nat → Nat
  /-- per channel: references owned by the messages in its unicast queue, in the order in which they are destroyed -/
  queued : List (List Own)
  /-- per channel: the cells of its parked sends (`waiting_send_to_one`, `waiting_send_to_all`) -/
  parked : List (List Nat)
  /-- per cell: references owned by its messages (simplification: the references of a broadcast that sits in
  several mailboxes are listed at the mailbox that is destroyed last) -/
  cell : List (List Own)
  th : List (List Instr)

/-- One action of thread `t`; `none`: blocked. The new actions come before the rest of the thread. -/
def exec (c : Cfg) (t : Nat) : Instr → Option (Cfg × List Instr)
  | .drop (.strong p) =>
    -- chan.rs:82-91, 210-231
    some ({ c with sc := fun q => if q = p then c.sc q - 1 else c.sc q }, if c.sc p = 1 then [.lock p, .unlock p] else [])
  | .drop (.mailbox b) =>
    -- chan.rs:64-73, 244-259; fields in order: mailbox.rs:11-14
    some ({ c with rcv := fun q => if q = c.home b then c.rcv q - 1 else c.rcv q },
      if c.rcv (c.home b) = 1 then [.lock (c.home b), .clear (c.home b), .unlock (c.home b), .release b] else [.release b])
  | .drop (.send b) => some (c, [.release b])
  | .drop .other => some (c, [])
  | .lock p => if c.owner p = none then some ({ c with owner := fun q => if q = p then some t else c.owner q }, []) else none
  | .unlock p => some ({ c with owner := fun q => if q = p then none else c.owner q }, [])
  | .unlockTake p =>
    some ({ c with owner := fun q => if q = p then none else c.owner q, queued := c.queued.set p (((c.queued[p]?).getD []).drop 1) },
      (((c.queued[p]?).getD []).take 1).map .drop)
  | .put p o => some ({ c with queued := c.queued.set p (((c.queued[p]?).getD []) ++ [o]) }, [])
  | .clear p =>
    some ({ c with queued := c.queued.set p [], parked := c.parked.set p [] },
      ((c.queued[p]?).getD []).map .drop ++ ((c.parked[p]?).getD []).map .close)
  | .close b =>
    if c.arc b = 0 then some (c, []) else some ({ c with cell := c.cell.set b [] }, ((c.cell[b]?).getD []).map .drop)
  | .upgrade b =>
    if c.arc b = 0 then some (c, [])
    else some ({ c with arc := fun d => if d = b then c.arc d + 1 else c.arc d }, [.release b])
  | .release b =>
    if c.arc b = 1 then
      some ({ c with arc := fun d => if d = b then c.arc d - 1 else c.arc d, cell := c.cell.set b [] },
        ((c.cell[b]?).getD []).map .drop)
    else some ({ c with arc := fun d => if d = b then c.arc d - 1 else c.arc d }, [])

/-- Thread `t` takes a step. -/
def step (c : Cfg) (t : Nat) : Option Cfg :=
  match c.th[t]? with
  | some (i :: is) =>
    match exec c t i with
    | some (c', js) => some { c' with th := c'.th.set t (js ++ is) }
    | none => none
  | _ => none

/-- Reached from `c` by some schedule. -/
inductive Steps : Cfg → Nat → Cfg → Prop where
  | refl {c : Cfg} : Steps c 0 c
  | step {c c1 c' : Cfg} {t n : Nat} : Steps c n c1 → step c1 t = some c' → Steps c (n + 1) c'

/-- What happens in a thread: user code, and the calls into the library with what they do in their critical sections. -/
inductive UAct where
  /-- a reference is destroyed -/
  | destroy (o : Own)
  /-- a call that locks `p`: `body` happens in the critical section -/
  | call (p : Nat) (body : List UAct)
  /-- `try_recv` takes a message from `p` (under the lock), and the thread uses it up (afterwards) -/
  | recv (p : Nat)
  /-- in a critical section: cell `b` of the channel is looked at -/
  | look (b : Nat)
  /-- in a critical section of `p`: a message owning `o` is put into the queue -/
  | put (p : Nat) (o : Own)
  deriving Repr

mutual
/-- The actions of a thread. -/
def UAct.instrs : UAct → List Instr
  | .destroy o => [.drop o]
  | .call p body => .lock p :: (UAct.instrsL body ++ [.unlock p])
  | .recv p => [.lock p, .unlockTake p]
  | .look b => [.upgrade b]
  | .put p o => [.put p o]

/-- The actions of a sequence. -/
def UAct.instrsL : List UAct → List Instr
  | [] => []
  | u :: us => u.instrs ++ UAct.instrsL us
end

/-- The channel a reference keeps alive. -/
def Own.chan (home : Nat → Nat) : Own → Option Nat
  | .strong p => some p
  | .mailbox b => some (home b)
  | .send b => some (home b)
  | .other => none

mutual
/-- `u`, happening in nested critical sections of the channels `held` (innermost first), is a possible use of the library: messages are
put into, and cells looked at in, the innermost of these channels. The calls and destructions inside a critical section are those of
wakers. -/
def UAct.Uses (home : Nat → Nat) : List Nat → UAct → Prop
  | _, .destroy _ => True
  | held, .call p body => UAct.UsesL home (p :: held) body
  | _, .recv _ => True
  | held, .look b => ∃ rest, held = home b :: rest
  | held, .put p _ => ∃ rest, held = p :: rest

/-- The same for a sequence. -/
def UAct.UsesL (home : Nat → Nat) : List Nat → List UAct → Prop
  | _, [] => True
  | held, u :: us => u.Uses home held ∧ UAct.UsesL home held us
end

mutual
/-- `u`, happening in nested critical sections of the channels `held`, respects the ranking `r`: inside the critical section of a channel
wakers touch only channels of smaller rank, and messages are sent only to channels of greater rank than those they refer to. -/
def UAct.Polite (home r : Nat → Nat) : List Nat → UAct → Prop
  | held, .destroy o => ∀ q, o.chan home = some q → ∀ p ∈ held, r q < r p
  | held, .call p body => (∀ q ∈ held, r p < r q) ∧ UAct.PoliteL home r (p :: held) body
  | held, .recv p => ∀ q ∈ held, r p < r q
  | _, .look _ => True
  | _, .put p o => ∀ q, o.chan home = some q → r q < r p

/-- The same for a sequence. -/
def UAct.PoliteL (home r : Nat → Nat) : List Nat → List UAct → Prop
  | _, [] => True
  | held, u :: us => u.Polite home r held ∧ UAct.PoliteL home r held us
end

/-- The threads are about to run the programs `uss`, and no channel is locked. -/
def Start (c : Cfg) (uss : List (List UAct)) : Prop :=
  (∀ p, c.owner p = none) ∧ c.th = uss.map UAct.instrsL ∧ ∀ us ∈ uss, UAct.UsesL c.home [] us

/-- Every thread has finished. -/
def Done (c : Cfg) : Prop := ∀ x ∈ c.th, x = []

/-- Nobody can move although not all have finished. -/
def Deadlocked (c : Cfg) : Prop := ¬ Done c ∧ ∀ t, step c t = none

/-- The messages of cell `b` may be destroyed inside the critical section of its channel: some critical section is going to look at it,
or it belongs to a parked send, which is closed when the last mailbox is dropped. -/
def Exposed (c : Cfg) (b : Nat) : Prop := (∃ x ∈ c.th, Instr.upgrade b ∈ x) ∨ ∃ l ∈ c.parked, b ∈ l

/-- No ownership cycle through waiting messages: the unicast messages waiting in a channel own (strong) references only to channels of
smaller rank; so do the messages in the `exposed` cells; the broadcasts in the other cells own references to channels of at most
the same rank. -/
structure Acyclic (r : Nat → Nat) (exposed : Nat → Prop) (c : Cfg) : Prop where
  queued : ∀ (p : Nat) l, c.queued[p]? = some l → ∀ o ∈ l, ∀ q, o.chan c.home = some q → r q < r p
  parked : ∀ (p : Nat) l, c.parked[p]? = some l → ∀ b ∈ l, c.home b = p ∧ exposed b
  cell : ∀ (b : Nat) l, c.cell[b]? = some l → ∀ o ∈ l, ∀ q, o.chan c.home = some q →
    r q ≤ r (c.home b) ∧ (exposed b → r q < r (c.home b))

/-! ## Proof -/

/-- `prog` is well-bracketed for a thread that holds `held` (innermost first), and touches only channels below those held. -/
def Ok (home r : Nat → Nat) (S : Nat → Prop) : List Nat → List Instr → Prop
  | held, [] => held = []
  | held, .drop o :: is => (∀ q, o.chan home = some q → ∀ p ∈ held, r q < r p) ∧ Ok home r S held is
  | held, .lock p :: is => (∀ q ∈ held, r p < r q) ∧ Ok home r S (p :: held) is
  | held, .unlock p :: is => ∃ rest, held = p :: rest ∧ Ok home r S rest is
  | held, .unlockTake p :: is => ∃ rest, held = p :: rest ∧ (∀ q ∈ rest, r p < r q) ∧ Ok home r S rest is
  | held, .put p o :: is => (∀ q, o.chan home = some q → r q < r p) ∧ Ok home r S held is
  | held, .clear p :: is => (∃ rest, held = p :: rest ∧ ∀ q ∈ rest, r p < r q) ∧ Ok home r S held is
  | held, .close b :: is => (S b ∧ ∀ p ∈ held, r (home b) ≤ r p) ∧ Ok home r S held is
  | held, .upgrade b :: is => (S b ∧ ∀ p ∈ held, r (home b) ≤ r p) ∧ Ok home r S held is
  | held, .release b :: is => ((∀ p ∈ held, r (home b) < r p) ∨ S b ∧ ∀ p ∈ held, r (home b) ≤ r p) ∧ Ok home r S held is

mutual
theorem ok_user {home r : Nat → Nat} {S : Nat → Prop} : ∀ (u : UAct) {held : List Nat} {is : List Instr},
    held.Pairwise (fun a b => r a < r b) → u.Uses home held → u.Polite home r held → (∀ b, .upgrade b ∈ u.instrs → S b) → Ok home r S held is →
    Ok home r S held (u.instrs ++ is)
  | .destroy o, held, is, _, _, hf, _, hi => by
    simp only [UAct.Polite] at hf
    exact ⟨hf, hi⟩
  | .call p body, held, is, hp, hu, hf, hS, hi => by
    simp only [UAct.Polite] at hf
    simp only [UAct.Uses] at hu
    simp only [UAct.instrs, List.cons_append, List.append_assoc]
    refine ⟨hf.1, ok_userL body (List.pairwise_cons.mpr ⟨hf.1, hp⟩) hu hf.2 (fun b hb => hS b (by simp [UAct.instrs, hb])) ?_⟩
    exact ⟨held, rfl, hi⟩
  | .recv p, held, is, _, _, hf, _, hi => by
    simp only [UAct.Polite] at hf
    exact ⟨hf, held, rfl, hf, hi⟩
  | .look b, held, is, hp, hu, _, hS, hi => by
    simp only [UAct.Uses] at hu
    obtain ⟨rest, rfl⟩ := hu
    refine ⟨⟨hS b (by simp [UAct.instrs]), ?_⟩, hi⟩
    intro p hm
    rcases List.mem_cons.mp hm with rfl | hm
    · exact Nat.le_refl _
    · exact Nat.le_of_lt ((List.pairwise_cons.mp hp).1 p hm)
  | .put p o, held, is, _, _, hf, _, hi => by
    simp only [UAct.Polite] at hf
    exact ⟨hf, hi⟩

theorem ok_userL {home r : Nat → Nat} {S : Nat → Prop} : ∀ (us : List UAct) {held : List Nat} {is : List Instr},
    held.Pairwise (fun a b => r a < r b) → UAct.UsesL home held us → UAct.PoliteL home r held us → (∀ b, .upgrade b ∈ UAct.instrsL us → S b) → Ok home r S held is →
    Ok home r S held (UAct.instrsL us ++ is)
  | [], held, is, _, _, _, _, hi => by simpa [UAct.instrsL] using hi
  | u :: us, held, is, hp, hu, hf, hS, hi => by
    simp only [UAct.PoliteL] at hf
    simp only [UAct.UsesL] at hu
    simp only [UAct.instrsL, List.append_assoc]
    exact ok_user u hp hu.1 hf.1 (fun b hb => hS b (by simp [UAct.instrsL, hb]))
      (ok_userL us hp hu.2 hf.2 (fun b hb => hS b (by simp [UAct.instrsL, hb])) hi)
end

theorem ok_drops {home r : Nat → Nat} {S : Nat → Prop} {held : List Nat} {is : List Instr} (os : List Own)
    (h : ∀ o ∈ os, ∀ q, o.chan home = some q → ∀ p ∈ held, r q < r p) (hi : Ok home r S held is) :
    Ok home r S held (os.map .drop ++ is) := by
  induction os with
  | nil => exact hi
  | cons o os ih => exact ⟨h o (by simp), ih fun o' ho' => h o' (by simp [ho'])⟩

theorem ok_closes {home r : Nat → Nat} {S : Nat → Prop} {held : List Nat} {is : List Instr} (bs : List Nat)
    (h : ∀ b ∈ bs, S b ∧ ∀ p ∈ held, r (home b) ≤ r p) (hi : Ok home r S held is) :
    Ok home r S held (bs.map .close ++ is) := by
  induction bs with
  | nil => exact hi
  | cons o os ih => exact ⟨h o (by simp), ih fun o' ho' => h o' (by simp [ho'])⟩

/-- The locks are held by the threads that have them, and every thread is well-bracketed. -/
structure Inv (r : Nat → Nat) (S : Nat → Prop) (c : Cfg) (held : Nat → List Nat) : Prop where
  acyc : Acyclic r S c
  ok : ∀ (t : Nat) x, c.th[t]? = some x → Ok c.home r S (held t) x
  own : ∀ p t, c.owner p = some t ↔ p ∈ held t
  dec : ∀ t, (held t).Pairwise (fun a b => r a < r b)
  dom : ∀ t, held t ≠ [] → t < c.th.length

theorem inv_start {c : Cfg} {r : Nat → Nat} {uss : List (List UAct)} (hs : Start c uss) (hp : ∀ us ∈ uss, UAct.PoliteL c.home r [] us)
    (ha : Acyclic r (Exposed c) c) : Inv r (Exposed c) c (fun _ => []) := by
  obtain ⟨h0, hth, hu⟩ := hs
  refine ⟨ha, ?_, ?_, by simp, by simp⟩
  · intro t x hx
    have hm := List.mem_of_getElem? hx
    rw [hth] at hm
    obtain ⟨us, hus, rfl⟩ := List.mem_map.mp hm
    have := ok_userL (S := Exposed c) us (is := []) List.Pairwise.nil (hu us hus) (hp us hus) (fun b hb => .inl ⟨_, hth ▸ hm, hb⟩) rfl
    simpa using this
  · intro p t; simp [h0 p]

theorem exec_frame {c c' : Cfg} {t : Nat} {i : Instr} {js : List Instr} (h : exec c t i = some (c', js)) :
    c'.home = c.home ∧ c'.th = c.th := by
  cases i with
  | drop o => cases o <;> simp [exec] at h <;> obtain ⟨rfl, rfl⟩ := h <;> exact ⟨rfl, rfl⟩
  | _ =>
    simp only [exec] at h
    first
    | (simp at h; obtain ⟨rfl, rfl⟩ := h; exact ⟨rfl, rfl⟩)
    | (split at h <;> first | (simp at h; obtain ⟨rfl, rfl⟩ := h; exact ⟨rfl, rfl⟩) | simp at h)

/-- Updating the thread list keeps the other threads' brackets. -/
theorem ok_set {home r : Nat → Nat} {S : Nat → Prop} {th : List (List Instr)} {held held' : Nat → List Nat} {t : Nat} {x : List Instr}
    (h : ∀ (u : Nat) y, th[u]? = some y → Ok home r S (held u) y) (hx : Ok home r S (held' t) x) (hh : ∀ u, u ≠ t → held' u = held u) :
    ∀ (u : Nat) y, (th.set t x)[u]? = some y → Ok home r S (held' u) y := by
  intro u y hy
  rw [List.getElem?_set] at hy
  split at hy
  · rename_i he; subst he
    split at hy
    · simp at hy; subst hy; exact hx
    · simp at hy
  · rename_i he
    rw [hh u (fun e => he e.symm)]; exact h u y hy

/-- Replacing an entry by one all of whose elements satisfy the same. -/
theorem all_set {α : Type} {P : Nat → α → Prop} {ls : List (List α)} {p : Nat} {l' : List α}
    (h : ∀ (q : Nat) l, ls[q]? = some l → ∀ o ∈ l, P q o) (hl : ∀ o ∈ l', P p o) :
    ∀ (q : Nat) l, (ls.set p l')[q]? = some l → ∀ o ∈ l, P q o := by
  intro q l hq o ho
  rw [List.getElem?_set] at hq
  split at hq
  · rename_i he; subst he
    split at hq
    · simp at hq; subst hq; exact hl o ho
    · simp at hq
  · exact h q l hq o ho

theorem all_getD {α : Type} {P : Nat → α → Prop} {ls : List (List α)} (p : Nat)
    (h : ∀ (q : Nat) l, ls[q]? = some l → ∀ o ∈ l, P q o) : ∀ o ∈ (ls[p]?).getD [], P p o := by
  intro o ho
  cases hl : ls[p]? with
  | none => simp [hl] at ho
  | some l => simp [hl] at ho; exact h p l hl o ho

/-- Unlocking. -/
theorem inv_unlock {c : Cfg} {r : Nat → Nat} {S : Nat → Prop} {held : Nat → List Nat} {t p : Nat} {rest : List Nat} {x : List Instr}
    {queued : List (List Own)} (hi : Inv r S c held) (htl : t < c.th.length) (hheld : held t = p :: rest)
    (ha : Acyclic r S { c with owner := fun q => if q = p then none else c.owner q, queued, th := c.th.set t x })
    (hr : Ok c.home r S rest x) :
    ∃ held', Inv r S { c with owner := fun q => if q = p then none else c.owner q, queued, th := c.th.set t x } held' := by
  have hnd : p ∉ rest := by
    have := hi.dec t
    rw [hheld, List.pairwise_cons] at this
    intro hm
    exact Nat.lt_irrefl _ (this.1 p hm)
  refine ⟨fun u => if u = t then rest else held u, ha, ok_set hi.ok (by simpa using hr) (by intro u hu; simp [hu]), ?_, ?_, ?_⟩
  · intro q u
    have h1 := hi.own q u
    have h4 := (hi.own p t).mpr (by simp [hheld])
    have h5 := hi.own p u
    by_cases hqp : q = p
    · subst hqp
      by_cases hut : u = t
      · subst hut; simp [hnd]
      · simp [hut]
        rw [h4] at h5
        intro hm
        have := h5.mpr hm
        simp at this; exact hut this.symm
    · by_cases hut : u = t
      · subst hut; simp [hqp, h1, hheld]
      · simp [hqp, hut, h1]
  · intro u
    by_cases hut : u = t
    · subst hut; have := hi.dec u; rw [hheld, List.pairwise_cons] at this; simpa using this.2
    · simp [hut, hi.dec u]
  · intro u hu
    by_cases hut : u = t
    · subst hut; simpa using htl
    · simp [hut] at hu; simpa using hi.dom u hu

/-- The references in a cell released or closed by a thread that may do so are below the locks it holds. -/
theorem cell_below {c : Cfg} {r : Nat → Nat} {S : Nat → Prop} {b : Nat} {held : List Nat} (ha : Acyclic r S c)
    (ho : (∀ p ∈ held, r (c.home b) < r p) ∨ S b ∧ ∀ p ∈ held, r (c.home b) ≤ r p) :
    ∀ o ∈ (c.cell[b]?).getD [], ∀ q, o.chan c.home = some q → ∀ p ∈ held, r q < r p := by
  intro o hm q hq p hp
  have := all_getD (P := fun b (o : Own) => ∀ q, o.chan c.home = some q → r q ≤ r (c.home b) ∧ (S b → r q < r (c.home b))) b ha.cell o hm q hq
  rcases ho with ho | ⟨hs, ho⟩
  · exact Nat.lt_of_le_of_lt this.1 (ho p hp)
  · exact Nat.lt_of_lt_of_le (this.2 hs) (ho p hp)

theorem inv_step {c c' : Cfg} {r : Nat → Nat} {S : Nat → Prop} {held : Nat → List Nat} {t : Nat} (hi : Inv r S c held)
    (hs : step c t = some c') : ∃ held', Inv r S c' held' := by
  unfold step at hs
  split at hs
  rotate_left
  · simp at hs
  rename_i i is hth
  split at hs
  rotate_left
  · simp at hs
  rename_i c1 js he
  simp at hs; subst hs
  obtain ⟨hho, hthe⟩ := exec_frame he
  have hok := hi.ok t _ hth
  have htl : t < c.th.length := by
    rw [List.getElem?_eq_some_iff] at hth; exact hth.1
  have hac := hi.acyc
  cases i with
  | drop o =>
    obtain ⟨ho, hr⟩ := hok
    cases o with
    | other =>
      simp only [exec, Option.some.injEq, Prod.mk.injEq] at he
      obtain ⟨rfl, rfl⟩ := he
      exact ⟨held, ⟨hac.1, hac.2, hac.3⟩, ok_set hi.ok hr (fun _ _ => rfl), hi.own, hi.dec, by simpa using hi.dom⟩
    | strong p =>
      simp only [exec, Option.some.injEq, Prod.mk.injEq] at he
      obtain ⟨rfl, rfl⟩ := he
      refine ⟨held, ⟨hac.1, hac.2, hac.3⟩, ok_set hi.ok ?_ (fun _ _ => rfl), hi.own, hi.dec, by simpa using hi.dom⟩
      split
      · exact ⟨fun q hq => ho p rfl q hq, _, rfl, hr⟩
      · exact hr
    | mailbox b =>
      simp only [exec, Option.some.injEq, Prod.mk.injEq] at he
      obtain ⟨rfl, rfl⟩ := he
      refine ⟨held, ⟨hac.1, hac.2, hac.3⟩, ok_set hi.ok ?_ (fun _ _ => rfl), hi.own, hi.dec, by simpa using hi.dom⟩
      have hb : ∀ q ∈ held t, r (c.home b) < r q := fun q hq => ho _ rfl q hq
      split
      · exact ⟨hb, ⟨_, rfl, hb⟩, _, rfl, .inl hb, hr⟩
      · exact ⟨.inl hb, hr⟩
    | send b =>
      simp only [exec, Option.some.injEq, Prod.mk.injEq] at he
      obtain ⟨rfl, rfl⟩ := he
      refine ⟨held, ⟨hac.1, hac.2, hac.3⟩, ok_set hi.ok ?_ (fun _ _ => rfl), hi.own, hi.dec, by simpa using hi.dom⟩
      exact ⟨.inl fun q hq => ho _ rfl q hq, hr⟩
  | lock p =>
    obtain ⟨ho, hr⟩ := hok
    simp only [exec] at he
    split at he
    rotate_left
    · simp at he
    rename_i hfree
    simp only [Option.some.injEq, Prod.mk.injEq] at he
    obtain ⟨rfl, rfl⟩ := he
    refine ⟨fun u => if u = t then p :: held t else held u, ⟨hac.1, hac.2, hac.3⟩,
      ok_set hi.ok (by simpa using hr) (by intro u hu; simp [hu]), ?_, ?_, ?_⟩
    · intro q u
      have h1 := hi.own q u
      have h2 := hi.own q t
      have h3 := hi.own p u
      have h4 := hi.own p t
      by_cases hqp : q = p
      · subst hqp
        by_cases hut : u = t
        · subst hut; simp
        · simp [hut, hfree] at h3 ⊢
          exact ⟨fun e => (hut e.symm).elim, fun h => (h3 h).elim⟩
      · by_cases hut : u = t
        · subst hut; simp [hqp, h1]
        · simp [hqp, hut, h1]
    · intro u
      by_cases hut : u = t
      · subst hut; simp only [if_true, List.pairwise_cons]; exact ⟨ho, hi.dec u⟩
      · simp [hut, hi.dec u]
    · intro u hu
      by_cases hut : u = t
      · subst hut; simpa using htl
      · simp [hut] at hu; simpa using hi.dom u hu
  | unlock p =>
    obtain ⟨rest, hheld, hr⟩ := hok
    simp only [exec, Option.some.injEq, Prod.mk.injEq] at he
    obtain ⟨rfl, rfl⟩ := he
    exact inv_unlock hi htl hheld ⟨hac.1, hac.2, hac.3⟩ hr
  | unlockTake p =>
    obtain ⟨rest, hheld, hrest, hr⟩ := hok
    simp only [exec, Option.some.injEq, Prod.mk.injEq] at he
    obtain ⟨rfl, rfl⟩ := he
    have hg := all_getD (P := fun p (o : Own) => ∀ q, o.chan c.home = some q → r q < r p) p hac.queued
    refine inv_unlock hi htl hheld ⟨?_, hac.2, hac.3⟩ (ok_drops _ ?_ hr)
    · exact all_set (P := fun p (o : Own) => ∀ q, o.chan c.home = some q → r q < r p) hac.queued fun o ho => hg o (List.mem_of_mem_drop ho)
    · intro o ho q hq p' hp'
      exact Nat.lt_trans (hg o (List.mem_of_mem_take ho) q hq) (hrest p' hp')
  | put p o =>
    obtain ⟨ho, hr⟩ := hok
    simp only [exec, Option.some.injEq, Prod.mk.injEq] at he
    obtain ⟨rfl, rfl⟩ := he
    have hg := all_getD (P := fun p (o : Own) => ∀ q, o.chan c.home = some q → r q < r p) p hac.queued
    refine ⟨held, ⟨?_, hac.2, hac.3⟩, ok_set hi.ok hr (fun _ _ => rfl), hi.own, hi.dec, by simpa using hi.dom⟩
    refine all_set (P := fun p (o : Own) => ∀ q, o.chan c.home = some q → r q < r p) hac.queued fun o' ho' => ?_
    rcases List.mem_append.mp ho' with h | h
    · exact hg o' h
    · simp at h; subst h; exact ho
  | clear p =>
    obtain ⟨⟨rest, hheld, hrest⟩, hr⟩ := hok
    simp only [exec, Option.some.injEq, Prod.mk.injEq] at he
    obtain ⟨rfl, rfl⟩ := he
    have hle : ∀ p' ∈ held t, r p ≤ r p' := by
      intro p' hp'
      rw [hheld] at hp'
      rcases List.mem_cons.mp hp' with rfl | hp'
      · exact Nat.le_refl _
      · exact Nat.le_of_lt (hrest p' hp')
    have hg := all_getD (P := fun p (o : Own) => ∀ q, o.chan c.home = some q → r q < r p) p hac.queued
    have hg2 := all_getD (P := fun p b => c.home b = p ∧ S b) p hac.parked
    refine ⟨held, ⟨?_, ?_, hac.3⟩, ok_set hi.ok ?_ (fun _ _ => rfl), hi.own, hi.dec, by simpa using hi.dom⟩
    · exact all_set (P := fun p (o : Own) => ∀ q, o.chan c.home = some q → r q < r p) hac.queued (by simp)
    · exact all_set (P := fun p b => c.home b = p ∧ S b) hac.parked (by simp)
    · rw [List.append_assoc]
      refine ok_drops _ ?_ (ok_closes _ ?_ hr)
      · intro o ho q hq p' hp'
        exact Nat.lt_of_lt_of_le (hg o ho q hq) (hle p' hp')
      · intro b hb
        obtain ⟨e, hS⟩ := hg2 b hb
        exact ⟨hS, fun p' hp' => e ▸ hle p' hp'⟩
  | close b =>
    obtain ⟨ho, hr⟩ := hok
    simp only [exec] at he
    split at he
    · simp only [Option.some.injEq, Prod.mk.injEq] at he
      obtain ⟨rfl, rfl⟩ := he
      exact ⟨held, ⟨hac.1, hac.2, hac.3⟩, ok_set hi.ok hr (fun _ _ => rfl), hi.own, hi.dec, by simpa using hi.dom⟩
    · simp only [Option.some.injEq, Prod.mk.injEq] at he
      obtain ⟨rfl, rfl⟩ := he
      exact ⟨held, ⟨hac.1, hac.2, all_set (P := fun b (o : Own) => ∀ q, o.chan c.home = some q → r q ≤ r (c.home b) ∧ (S b → r q < r (c.home b)))
          hac.cell (by simp)⟩,
        ok_set hi.ok (ok_drops _ (cell_below hac (.inr ho)) hr) (fun _ _ => rfl), hi.own, hi.dec, by simpa using hi.dom⟩
  | upgrade b =>
    obtain ⟨ho, hr⟩ := hok
    simp only [exec] at he
    split at he
    · simp only [Option.some.injEq, Prod.mk.injEq] at he
      obtain ⟨rfl, rfl⟩ := he
      exact ⟨held, ⟨hac.1, hac.2, hac.3⟩, ok_set hi.ok hr (fun _ _ => rfl), hi.own, hi.dec, by simpa using hi.dom⟩
    · simp only [Option.some.injEq, Prod.mk.injEq] at he
      obtain ⟨rfl, rfl⟩ := he
      exact ⟨held, ⟨hac.1, hac.2, hac.3⟩, ok_set hi.ok ⟨.inr ho, hr⟩ (fun _ _ => rfl), hi.own, hi.dec, by simpa using hi.dom⟩
  | release b =>
    obtain ⟨ho, hr⟩ := hok
    simp only [exec] at he
    split at he
    · simp only [Option.some.injEq, Prod.mk.injEq] at he
      obtain ⟨rfl, rfl⟩ := he
      exact ⟨held, ⟨hac.1, hac.2, all_set (P := fun b (o : Own) => ∀ q, o.chan c.home = some q → r q ≤ r (c.home b) ∧ (S b → r q < r (c.home b)))
          hac.cell (by simp)⟩,
        ok_set hi.ok (ok_drops _ (cell_below hac ho) hr) (fun _ _ => rfl), hi.own, hi.dec, by simpa using hi.dom⟩
    · simp only [Option.some.injEq, Prod.mk.injEq] at he
      obtain ⟨rfl, rfl⟩ := he
      exact ⟨held, ⟨hac.1, hac.2, hac.3⟩, ok_set hi.ok hr (fun _ _ => rfl), hi.own, hi.dec, by simpa using hi.dom⟩

theorem inv_steps {c c' : Cfg} {r : Nat → Nat} {uss : List (List UAct)} {n : Nat} (hs : Start c uss)
    (hp : ∀ us ∈ uss, UAct.PoliteL c.home r [] us) (ha : Acyclic r (Exposed c) c) (h : Steps c n c') :
    ∃ held, Inv r (Exposed c) c' held := by
  induction h with
  | refl => exact ⟨_, inv_start hs hp ha⟩
  | step _ h1 ih =>
    obtain ⟨held, hi⟩ := ih
    exact inv_step hi h1

/-- Only locking blocks. -/
theorem exec_blocked {c : Cfg} {t : Nat} {i : Instr} (h : exec c t i = none) : ∃ p, i = .lock p ∧ ∃ t', c.owner p = some t' := by
  cases i with
  | drop o => cases o <;> simp [exec] at h
  | lock p =>
    simp only [exec] at h
    split at h
    · simp at h
    · rename_i hn
      exact ⟨p, rfl, Option.ne_none_iff_exists'.mp hn⟩
  | _ => simp only [exec] at h; first | (split at h <;> simp at h) | simp at h

theorem step_of {c : Cfg} {t : Nat} {i : Instr} {is : List Instr} (h : c.th[t]? = some (i :: is)) :
    (∃ c', step c t = some c') ∨ ∃ p, i = .lock p ∧ ∃ t', c.owner p = some t' := by
  cases he : exec c t i with
  | none => exact .inr (exec_blocked he)
  | some y =>
    refine .inl ⟨{ y.1 with th := y.1.th.set t (y.2 ++ is) }, ?_⟩
    simp only [step, h, he]

/-- A thread waiting for a lock of rank `n`: somebody can move. -/
theorem unblock {c : Cfg} {r : Nat → Nat} {S : Nat → Prop} {held : Nat → List Nat} (hi : Inv r S c held) : ∀ (n : Nat) {p t : Nat}, r p = n →
    c.owner p = some t → ∃ u c', step c u = some c' := by
  intro n
  induction n using Nat.strongRecOn with
  | ind n ih =>
    intro p t hn hp
    have hm := (hi.own p t).mp hp
    have htl := hi.dom t (by intro e; simp [e] at hm)
    have hx : c.th[t]? = some c.th[t] := by simp [htl]
    have hok := hi.ok t _ hx
    cases hpr : c.th[t] with
    | nil => rw [hpr] at hok; simp only [Ok] at hok; simp [hok] at hm
    | cons i is =>
      rw [hpr] at hok hx
      rcases step_of hx with ⟨c', h⟩ | ⟨p', rfl, t', hp'⟩
      · exact ⟨t, c', h⟩
      · exact ih (r p') (by have := hok.1 p hm; omega) rfl hp'

theorem progress {c : Cfg} {r : Nat → Nat} {S : Nat → Prop} {held : Nat → List Nat} (hi : Inv r S c held) (hd : ¬ Done c) :
    ∃ t c', step c t = some c' := by
  have hd' : ∃ x, x ∈ c.th ∧ x ≠ [] := by
    apply Classical.byContradiction
    intro hn
    apply hd
    intro x hx
    apply Classical.byContradiction
    intro hne
    exact hn ⟨x, hx, hne⟩
  obtain ⟨x, hx, hne⟩ := hd'
  obtain ⟨t, ht, he⟩ := List.getElem_of_mem hx
  have hth : c.th[t]? = some x := by simp [ht, he]
  cases x with
  | nil => exact (hne rfl).elim
  | cons i is =>
    rcases step_of hth with ⟨c', h⟩ | ⟨p', rfl, t', hp'⟩
    · exact ⟨t, c', h⟩
    · exact unblock hi _ rfl hp'

/-! ### Termination -/

/-- Work in an action. -/
def Instr.work : Instr → Nat
  | .drop _ => 5
  | .put _ _ => 6
  | .upgrade _ => 2
  | _ => 1

/-- Work left in the threads and in the queues: one for each lock operation and the like, five for each reference to destroy. -/
def Cfg.work (c : Cfg) : Nat :=
  tot Instr.work c.th + sumBy (fun l => 5 * l.length) c.queued + sumBy List.length c.parked + sumBy (fun l => 5 * l.length) c.cell

theorem sum_drops (os : List Own) : sumBy Instr.work (os.map .drop) = 5 * os.length := by
  induction os with
  | nil => rfl
  | cons o os ih => simp only [List.map_cons, sumBy_cons, ih, Instr.work, List.length_cons]; omega

theorem sum_closes (bs : List Nat) : sumBy Instr.work (bs.map .close) = bs.length := by
  induction bs with
  | nil => rfl
  | cons o os ih => simp only [List.map_cons, sumBy_cons, ih, Instr.work, List.length_cons]; omega

/-- Replacing an entry by another: never more than the difference. -/
theorem swap_sum {α : Type} (ls : List (List α)) (k p : Nat) (l' : List α) :
    sumBy (fun l => k * l.length) (ls.set p l') + k * ((ls[p]?).getD []).length ≤ sumBy (fun l => k * l.length) ls + k * l'.length := by
  cases h : ls[p]? with
  | none => rw [List.set_eq_of_length_le (by simpa using h)]; simp
  | some l =>
    have := sumBy_set (f := fun l : List α => k * l.length) l' h
    simp at this ⊢; omega

theorem work_step {c c' : Cfg} {t : Nat} (hs : step c t = some c') : c'.work < c.work := by
  unfold step at hs
  split at hs
  rotate_left
  · simp at hs
  rename_i i is hth
  split at hs
  rotate_left
  · simp at hs
  rename_i c1 js he
  simp at hs; subst hs
  have key : ∀ js, tot Instr.work (c.th.set t (js ++ is)) + Instr.work i = tot Instr.work c.th + sumBy Instr.work js := by
    intro js
    have := tot_exec Instr.work js hth
    omega
  cases i with
  | drop o =>
    cases o with
    | other =>
      simp only [exec, Option.some.injEq, Prod.mk.injEq] at he
      obtain ⟨rfl, rfl⟩ := he
      have := key []
      simp only [Cfg.work, sumBy_nil, Instr.work] at this ⊢; omega
    | strong p =>
      simp only [exec, Option.some.injEq, Prod.mk.injEq] at he
      obtain ⟨rfl, rfl⟩ := he
      have := key (if c.sc p = 1 then [.lock p, .unlock p] else [])
      have h2 : sumBy Instr.work (if c.sc p = 1 then [Instr.lock p, .unlock p] else []) ≤ 2 := by
        split <;> simp [Instr.work]
      simp only [Cfg.work, Instr.work] at this ⊢; omega
    | mailbox b =>
      simp only [exec, Option.some.injEq, Prod.mk.injEq] at he
      obtain ⟨rfl, rfl⟩ := he
      have := key (if c.rcv (c.home b) = 1 then [.lock (c.home b), .clear (c.home b), .unlock (c.home b), .release b] else [.release b])
      have h2 : sumBy Instr.work (if c.rcv (c.home b) = 1 then [Instr.lock (c.home b), .clear (c.home b), .unlock (c.home b), .release b] else [.release b]) ≤ 4 := by
        split <;> simp [Instr.work]
      simp only [Cfg.work, Instr.work] at this ⊢; omega
    | send b =>
      simp only [exec, Option.some.injEq, Prod.mk.injEq] at he
      obtain ⟨rfl, rfl⟩ := he
      have := key [.release b]
      simp only [Cfg.work, sumBy_cons, sumBy_nil, Instr.work] at this ⊢; omega
  | lock p =>
    simp only [exec] at he
    split at he
    rotate_left
    · simp at he
    simp only [Option.some.injEq, Prod.mk.injEq] at he
    obtain ⟨rfl, rfl⟩ := he
    have := key []
    simp only [Cfg.work, sumBy_nil, Instr.work] at this ⊢; omega
  | unlock p =>
    simp only [exec, Option.some.injEq, Prod.mk.injEq] at he
    obtain ⟨rfl, rfl⟩ := he
    have := key []
    simp only [Cfg.work, sumBy_nil, Instr.work] at this ⊢; omega
  | unlockTake p =>
    simp only [exec, Option.some.injEq, Prod.mk.injEq] at he
    obtain ⟨rfl, rfl⟩ := he
    have := key ((((c.queued[p]?).getD []).take 1).map .drop)
    rw [sum_drops] at this
    have h2 := swap_sum c.queued 5 p (((c.queued[p]?).getD []).drop 1)
    have h3 : (((c.queued[p]?).getD []).take 1).length + (((c.queued[p]?).getD []).drop 1).length = ((c.queued[p]?).getD []).length := by
      simp only [List.length_take, List.length_drop]; omega
    simp only [Cfg.work, Instr.work] at this ⊢; omega
  | put p o =>
    simp only [exec, Option.some.injEq, Prod.mk.injEq] at he
    obtain ⟨rfl, rfl⟩ := he
    have := key []
    have h2 := swap_sum c.queued 5 p (((c.queued[p]?).getD []) ++ [o])
    simp only [List.length_append, List.length_cons, List.length_nil] at h2
    simp only [Cfg.work, sumBy_nil, Instr.work] at this ⊢; omega
  | clear p =>
    simp only [exec, Option.some.injEq, Prod.mk.injEq] at he
    obtain ⟨rfl, rfl⟩ := he
    have := key (((c.queued[p]?).getD []).map .drop ++ ((c.parked[p]?).getD []).map .close)
    rw [sumBy_append, sum_drops, sum_closes] at this
    have h2 := swap_sum c.queued 5 p []
    have h3 := swap_sum c.parked 1 p []
    simp only [List.length_nil, Nat.one_mul] at h2 h3
    have e : (fun l : List Nat => l.length) = List.length := rfl
    rw [e] at h3
    simp only [Cfg.work, Instr.work] at this ⊢; omega
  | close b =>
    simp only [exec] at he
    split at he
    · simp only [Option.some.injEq, Prod.mk.injEq] at he
      obtain ⟨rfl, rfl⟩ := he
      have := key []
      simp only [Cfg.work, sumBy_nil, Instr.work] at this ⊢; omega
    · simp only [Option.some.injEq, Prod.mk.injEq] at he
      obtain ⟨rfl, rfl⟩ := he
      have := key (((c.cell[b]?).getD []).map .drop)
      rw [sum_drops] at this
      have h2 := swap_sum c.cell 5 b []
      simp only [List.length_nil] at h2
      simp only [Cfg.work, Instr.work] at this ⊢; omega
  | upgrade b =>
    simp only [exec] at he
    split at he
    · simp only [Option.some.injEq, Prod.mk.injEq] at he
      obtain ⟨rfl, rfl⟩ := he
      have := key []
      simp only [Cfg.work, sumBy_nil, Instr.work] at this ⊢; omega
    · simp only [Option.some.injEq, Prod.mk.injEq] at he
      obtain ⟨rfl, rfl⟩ := he
      have := key [.release b]
      simp only [Cfg.work, sumBy_cons, sumBy_nil, Instr.work] at this ⊢; omega
  | release b =>
    simp only [exec] at he
    split at he
    · simp only [Option.some.injEq, Prod.mk.injEq] at he
      obtain ⟨rfl, rfl⟩ := he
      have := key (((c.cell[b]?).getD []).map .drop)
      rw [sum_drops] at this
      have h2 := swap_sum c.cell 5 b []
      simp only [List.length_nil] at h2
      simp only [Cfg.work, Instr.work] at this ⊢; omega
    · simp only [Option.some.injEq, Prod.mk.injEq] at he
      obtain ⟨rfl, rfl⟩ := he
      have := key []
      simp only [Cfg.work, sumBy_nil, Instr.work] at this ⊢; omega

theorem work_steps {c c' : Cfg} {n : Nat} (h : Steps c n c') : c'.work + n ≤ c.work := by
  induction h with
  | refl => exact Nat.le_refl _
  | step _ h1 ih => have := work_step h1; omega

/-! ## Results -/

/-- **C53 (partial).** If no ownership cycle leads through waiting messages, and the wakers run inside critical sections respect the
ranking, then, whatever the threads do and whatever the schedule, the channels' locks never deadlock: as long as a thread has not
finished, some thread can go on. Missing: without the hypotheses, which the library does not enforce, it is false (`C53_refuted`). -/
theorem C53_no_deadlock_partial {c c' : Cfg} {r : Nat → Nat} {uss : List (List UAct)} {n : Nat} (hs : Start c uss)
    (hp : ∀ us ∈ uss, UAct.PoliteL c.home r [] us) (ha : Acyclic r (Exposed c) c) (h : Steps c n c') :
    ¬ Deadlocked c' := by
  rintro ⟨hd, hall⟩
  obtain ⟨held, hi⟩ := inv_steps hs hp ha h
  obtain ⟨t, c2, h2⟩ := progress hi hd
  simp [hall t] at h2

/-- **C53 (partial).** Under the same hypotheses, every schedule that goes on as long as possible ends, after at most `c.work` steps,
with all threads finished. -/
theorem C53_all_finish_partial {c : Cfg} {r : Nat → Nat} {uss : List (List UAct)} (hs : Start c uss)
    (hp : ∀ us ∈ uss, UAct.PoliteL c.home r [] us) (ha : Acyclic r (Exposed c) c) :
    (∀ n c', Steps c n c' → n ≤ c.work) ∧
    ∀ n c', Steps c n c' → (∀ t, step c' t = none) → Done c' := by
  refine ⟨fun n c' h => by have := work_steps h; omega, fun n c' h hall => ?_⟩
  apply Classical.byContradiction
  intro hd
  exact C53_no_deadlock_partial hs hp ha h ⟨hd, hall⟩

/-- A thread whose wakers touch no channel (as those of ordinary executors, which put the task into a run queue): it destroys references,
receives messages, and makes calls which, in the critical section of `p`, look at cells of `p` and put messages into its queue that refer
only to channels of smaller rank. -/
def UAct.Plain (home r : Nat → Nat) : UAct → Prop
  | .destroy _ => True
  | .recv _ => True
  | .call p body => ∀ v ∈ body, (∃ b, v = .look b ∧ home b = p) ∨ ∃ o, v = .put p o ∧ ∀ q, o.chan home = some q → r q < r p
  | _ => False

theorem plain_body {home r : Nat → Nat} {p : Nat} {body : List UAct}
    (h : ∀ v ∈ body, (∃ b, v = .look b ∧ home b = p) ∨ ∃ o, v = .put p o ∧ ∀ q, o.chan home = some q → r q < r p) :
    UAct.UsesL home [p] body ∧ UAct.PoliteL home r [p] body := by
  induction body with
  | nil => exact ⟨by simp only [UAct.UsesL], by simp only [UAct.PoliteL]⟩
  | cons v vs ih =>
    obtain ⟨h1, h2⟩ := ih fun v hv => h v (by simp [hv])
    simp only [UAct.UsesL, UAct.PoliteL]
    rcases h v (by simp) with ⟨b, rfl, rfl⟩ | ⟨o, rfl, ho⟩
    · exact ⟨⟨by simp only [UAct.Uses]; exact ⟨_, rfl⟩, h1⟩, by simp only [UAct.Polite], h2⟩
    · exact ⟨⟨by simp only [UAct.Uses]; exact ⟨_, rfl⟩, h1⟩, by simp only [UAct.Polite]; exact ho, h2⟩

theorem plain_uses {home r : Nat → Nat} {us : List UAct} (h : ∀ u ∈ us, u.Plain home r) :
    UAct.UsesL home [] us ∧ UAct.PoliteL home r [] us := by
  induction us with
  | nil => exact ⟨by simp only [UAct.UsesL], by simp only [UAct.PoliteL]⟩
  | cons u us ih =>
    obtain ⟨h1, h2⟩ := ih fun v hv => h v (by simp [hv])
    simp only [UAct.UsesL, UAct.PoliteL]
    have hu := h u (by simp)
    cases u with
    | destroy o => exact ⟨⟨by simp only [UAct.Uses], h1⟩, by simp [UAct.Polite], h2⟩
    | recv p => exact ⟨⟨by simp only [UAct.Uses], h1⟩, by simp [UAct.Polite], h2⟩
    | call p body =>
      obtain ⟨h3, h4⟩ := plain_body hu
      exact ⟨⟨by simp only [UAct.Uses]; exact h3, h1⟩, by simp only [UAct.Polite]; exact ⟨by simp, h4⟩, h2⟩
    | look b => exact hu.elim
    | put p o => exact hu.elim

/-- **C41 (partial).** With ordinary wakers: if no ownership cycle leads through waiting messages, then, whatever the threads do and
whatever the schedule, the channels' locks never deadlock: as long as a thread has not finished, some thread can go on. Missing: without
the hypothesis about the messages, which the library does not enforce, it is false (`C41_refuted`). -/
theorem C41_no_deadlock_partial {c c' : Cfg} {r : Nat → Nat} {uss : List (List UAct)} {n : Nat} (h0 : ∀ p, c.owner p = none)
    (hth : c.th = uss.map UAct.instrsL) (hp : ∀ us ∈ uss, ∀ u ∈ us, u.Plain c.home r) (ha : Acyclic r (Exposed c) c) (h : Steps c n c') :
    ¬ Deadlocked c' :=
  C53_no_deadlock_partial ⟨h0, hth, fun us hus => (plain_uses (hp us hus)).1⟩ (fun us hus => (plain_uses (hp us hus)).2) ha h

/-- **C41 (partial).** Under the same hypotheses, every schedule that goes on as long as possible ends, after at most `c.work` steps,
with all threads finished. -/
theorem C41_all_finish_partial {c : Cfg} {r : Nat → Nat} {uss : List (List UAct)} (h0 : ∀ p, c.owner p = none)
    (hth : c.th = uss.map UAct.instrsL) (hp : ∀ us ∈ uss, ∀ u ∈ us, u.Plain c.home r) (ha : Acyclic r (Exposed c) c) :
    (∀ n c', Steps c n c' → n ≤ c.work) ∧
    ∀ n c', Steps c n c' → (∀ t, step c' t = none) → Done c' :=
  C53_all_finish_partial ⟨h0, hth, fun us hus => (plain_uses (hp us hus)).1⟩ (fun us hus => (plain_uses (hp us hus)).2) ha

/-- A thread with ordinary wakers that sends only messages without references to channels. -/
def UAct.Simple (home : Nat → Nat) : UAct → Prop
  | .destroy _ => True
  | .recv _ => True
  | .call p body => ∀ v ∈ body, (∃ b, v = .look b ∧ home b = p) ∨ v = .put p .other
  | _ => False

/-- **C53: ordinary messages and ordinary wakers.** If no waiting message owns a reference to a channel, no message sent does, and the
wakers touch no channel, then every schedule ends with all threads finished, whatever addresses, mailboxes and futures they destroy and
whatever calls they make: no ranking is needed. -/
theorem C53_ordinary {c : Cfg} {uss : List (List UAct)} (h0 : ∀ p, c.owner p = none)
    (hth : c.th = uss.map UAct.instrsL) (hp : ∀ us ∈ uss, ∀ u ∈ us, u.Simple c.home)
    (hq : ∀ l ∈ c.queued, ∀ o ∈ l, o = .other) (hc : ∀ l ∈ c.cell, ∀ o ∈ l, o = .other)
    (hpk : ∀ (p : Nat) l, c.parked[p]? = some l → ∀ b ∈ l, c.home b = p) :
    (∀ n c', Steps c n c' → n ≤ c.work) ∧
    ∀ n c', Steps c n c' → (∀ t, step c' t = none) → Done c' := by
  refine C41_all_finish_partial (r := fun _ => 0) h0 hth ?_ ⟨?_, ?_, ?_⟩
  · intro us hus u hu
    have := hp us hus u hu
    cases u with
    | call p body =>
      intro v hv
      rcases this v hv with h | rfl
      · exact .inl h
      · exact .inr ⟨_, rfl, by simp [Own.chan]⟩
    | _ => exact this
  · intro p l hl o ho q hch
    rw [hq l (List.mem_of_getElem? hl) o ho] at hch
    simp [Own.chan] at hch
  · intro p l hl b hb
    exact ⟨hpk p l hl b hb, .inr ⟨l, List.mem_of_getElem? hl, hb⟩⟩
  · intro p l hl o ho q hch
    rw [hc l (List.mem_of_getElem? hl) o ho] at hch
    simp [Own.chan] at hch

/-! ## Counterexamples -/

/-- Two actors, each with a waiting message that owns the last strong address of the other; two threads drop the two mailboxes. -/
def exCross : Cfg where
  home := id
  sc := fun _ => 1
  rcv := fun _ => 1
  owner := fun _ => none
  arc := fun _ => 1
  queued := [[.strong 1], [.strong 0]]
  parked := [[], []]
  cell := [[], []]
  th := [[.drop (.mailbox 0)], [.drop (.mailbox 1)]]

/-- Two actors; a message waiting for the first owns the mailbox of the second, one waiting for the second owns the last strong address
of the first; one thread drops the mailbox of the first. -/
def exChain : Cfg where
  home := id
  sc := fun _ => 1
  rcv := fun _ => 1
  owner := fun _ => none
  arc := fun _ => 1
  queued := [[.mailbox 1], [.strong 0]]
  parked := [[], []]
  cell := [[], []]
  th := [[.drop (.mailbox 0)]]

/-- One actor with two mailboxes. A broadcast that waits in mailbox 0 (the other mailbox has received it already) owns the last strong
address. One thread makes a call that looks at the broadcast queues (for example, it receives a broadcast from the other mailbox), another
drops mailbox 0. -/
def exLook : Cfg where
  home := fun _ => 0
  sc := fun _ => 1
  rcv := fun _ => 2
  owner := fun _ => none
  arc := fun _ => 1
  queued := [[]]
  parked := [[]]
  cell := [[.strong 0], []]
  th := [[.lock 0, .upgrade 0, .unlock 0], [.drop (.mailbox 0)]]

/-- One actor; a send is parked because the mailbox is full, and its message owns the last strong address. One thread receives a message
and looks at the parked sends for one to admit, another drops the future of the parked send. -/
def exParked : Cfg where
  home := fun _ => 0
  sc := fun _ => 1
  rcv := fun _ => 1
  owner := fun _ => none
  arc := fun _ => 1
  queued := [[.other]]
  parked := [[1]]
  cell := [[], [.strong 0]]
  th := [[.lock 0, .upgrade 1, .unlock 0], [.drop (.send 1)]]

/-- A waker that asks the channel for its length is invoked in a critical section of the channel. -/
def exWaker : Cfg where
  home := fun _ => 0
  sc := fun _ => 1
  rcv := fun _ => 1
  owner := fun _ => none
  arc := fun _ => 1
  queued := [[]]
  parked := [[]]
  cell := [[]]
  th := [[.lock 0, .lock 0, .unlock 0, .unlock 0]]

/-- A waker that destroys a task owning the last strong address is invoked in a critical section of the channel. -/
def exWakerDrop : Cfg where
  home := fun _ => 0
  sc := fun _ => 1
  rcv := fun _ => 1
  owner := fun _ => none
  arc := fun _ => 1
  queued := [[]]
  parked := [[]]
  cell := [[]]
  th := [[.lock 0, .drop (.strong 0), .unlock 0]]

/-- Run a schedule. -/
def runs (c : Cfg) : List Nat → Option Cfg
  | [] => some c
  | t :: ts => match step c t with
    | some c' => runs c' ts
    | none => none

theorem Steps.cons {c c1 c' : Cfg} {t n : Nat} (h1 : Multi.step c t = some c1) (h : Steps c1 n c') : Steps c (n + 1) c' := by
  induction h with
  | refl => exact .step .refl h1
  | step _ h2 ih => exact .step ih h2

theorem steps_of_runs {c c' : Cfg} {ts : List Nat} (h : runs c ts = some c') : Steps c ts.length c' := by
  induction ts generalizing c with
  | nil => simp [runs] at h; subst h; exact .refl
  | cons t ts ih =>
    simp only [runs] at h
    split at h
    · rename_i c1 h1; exact .cons h1 (ih h)
    · simp at h

theorem two_stuck {c : Cfg} (hl : c.th.length ≤ 2) (h0 : step c 0 = none) (h1 : step c 1 = none) (hn : ∃ i is, c.th[0]? = some (i :: is)) :
    Deadlocked c := by
  refine ⟨?_, ?_⟩
  · intro hd
    obtain ⟨i, is, h⟩ := hn
    have := hd _ (List.mem_of_getElem? h)
    simp at this
  · intro t
    match t with
    | 0 => exact h0
    | 1 => exact h1
    | t + 2 =>
      have : c.th[t + 2]? = none := by simp; omega
      simp [step, this]

/-- **C41 is false without the hypothesis.** Two threads dropping the mailboxes of two actors, with well-behaved counters, can
deadlock (each holds the mutex of its own channel and waits for the other's); one thread alone can, through a chain of two
actors; and so can a thread whose critical section looks at a broadcast queue that another thread is dropping, although the messages in
it refer to no other channel. -/
theorem C41_refuted :
    (∃ c', Start exCross [[.destroy (.mailbox 0)], [.destroy (.mailbox 1)]] ∧ Steps exCross 8 c' ∧ Deadlocked c') ∧
    (∃ c', Start exChain [[.destroy (.mailbox 0)]] ∧ Steps exChain 7 c' ∧ Deadlocked c') ∧
    (∃ c', Start exLook [[.call 0 [.look 0]], [.destroy (.mailbox 0)]] ∧ Steps exLook 6 c' ∧ Deadlocked c') ∧
    (∃ c', Start exParked [[.call 0 [.look 1]], [.destroy (.send 1)]] ∧ Steps exParked 6 c' ∧ Deadlocked c') := by
  refine ⟨⟨_, ⟨fun _ => rfl, rfl, ?_⟩, steps_of_runs (ts := [0, 0, 1, 1, 0, 0, 1, 1]) rfl, two_stuck (by decide) rfl rfl ⟨_, _, rfl⟩⟩,
    ⟨_, ⟨fun _ => rfl, rfl, ?_⟩, steps_of_runs (ts := [0, 0, 0, 0, 0, 0, 0]) rfl, two_stuck (by decide) rfl rfl ⟨_, _, rfl⟩⟩,
    ⟨_, ⟨fun _ => rfl, rfl, ?_⟩, steps_of_runs (ts := [0, 0, 1, 1, 0, 0]) rfl, two_stuck (by decide) rfl rfl ⟨_, _, rfl⟩⟩,
    ⟨_, ⟨fun _ => rfl, rfl, ?_⟩, steps_of_runs (ts := [0, 0, 1, 1, 0, 0]) rfl, two_stuck (by decide) rfl rfl ⟨_, _, rfl⟩⟩⟩ <;>
    simp [UAct.UsesL, UAct.Uses, exLook, exParked]

/-- **C53 is false without the hypothesis.** A thread can block on a mutex it holds itself: because a waker calls the library, or
because it destroys a task that owns the last strong address. -/
theorem C53_refuted :
    (∃ c', Start exWaker [[.call 0 [.call 0 []]]] ∧ Steps exWaker 1 c' ∧ Deadlocked c') ∧
    (∃ c', Start exWakerDrop [[.call 0 [.destroy (.strong 0)]]] ∧ Steps exWakerDrop 2 c' ∧ Deadlocked c') := by
  refine ⟨⟨_, ⟨fun _ => rfl, rfl, ?_⟩, steps_of_runs (ts := [0]) rfl, two_stuck (by decide) rfl rfl ⟨_, _, rfl⟩⟩,
    ⟨_, ⟨fun _ => rfl, rfl, ?_⟩, steps_of_runs (ts := [0, 0]) rfl, two_stuck (by decide) rfl rfl ⟨_, _, rfl⟩⟩⟩ <;>
    simp [UAct.UsesL, UAct.Uses]

/-! ## Instances -/

/-- Three channels in a chain: a message waiting in 2 owns the mailbox of 1 and an address of 0, one waiting in 1 owns the last address
of 0, a broadcast waiting in the mailbox of 1 owns an address of 1 itself, one waiting in the mailbox of 2 an address of 1, and a send
parked in 2 (cell 3) an address of 0. -/
def exRank (th : List (List Instr)) : Cfg where
  home := fun b => if b = 3 then 2 else b
  sc := fun _ => 3
  rcv := fun _ => 1
  owner := fun _ => none
  arc := fun _ => 1
  queued := [[], [.strong 0], [.mailbox 1, .strong 0, .other]]
  parked := [[], [], [3]]
  cell := [[], [.strong 1], [.strong 1], [.strong 0]]
  th := th

/-- Two threads with ordinary wakers. -/
def exRankPlain : List (List UAct) :=
  [[.destroy (.mailbox 2), .destroy (.strong 1)], [.call 2 [.look 2, .look 3, .put 2 (.strong 1)], .recv 1, .destroy (.mailbox 0)]]

/-- A third thread calls into channel 2, and a waker invoked there receives from channel 1, asks channel 0 for its length and destroys
an address of it. -/
def exRankWaker : List (List UAct) :=
  exRankPlain ++ [[.call 2 [.look 3, .recv 1, .call 0 [], .destroy (.strong 0)]]]

theorem exRank_acyclic {th : List (List Instr)} (h1 : ∀ x ∈ th, Instr.upgrade 1 ∉ x) :
    Acyclic id (Exposed (exRank th)) (exRank th) := by
  refine ⟨?_, ?_, ?_⟩
  · intro p l hl o ho q hq
    match p with
    | 0 => simp [exRank] at hl; subst hl; simp at ho
    | 1 =>
      simp [exRank] at hl; subst hl; simp at ho; subst ho
      simp [Own.chan] at hq; subst hq; decide
    | 2 =>
      simp [exRank] at hl; subst hl; simp at ho
      rcases ho with rfl | rfl | rfl <;> simp [Own.chan, exRank] at hq <;> subst hq <;> decide
    | p + 3 => simp [exRank] at hl
  · intro p l hl b hb
    match p with
    | 0 => simp [exRank] at hl; subst hl; simp at hb
    | 1 => simp [exRank] at hl; subst hl; simp at hb
    | 2 =>
      simp [exRank] at hl; subst hl; simp at hb; subst hb
      exact ⟨rfl, .inr ⟨[3], by simp [exRank], by simp⟩⟩
    | p + 3 => simp [exRank] at hl
  · intro b l hl o ho q hq
    match b with
    | 0 => simp [exRank] at hl; subst hl; simp at ho
    | 1 =>
      simp [exRank] at hl; subst hl; simp at ho; subst ho
      simp [Own.chan] at hq; subst hq
      refine ⟨Nat.le_refl _, ?_⟩
      rintro (⟨x, hx, hm⟩ | ⟨l, hl, hm⟩)
      · exact (h1 x hx hm).elim
      · simp [exRank] at hl
        rcases hl with rfl | rfl | rfl <;> simp at hm
    | 2 =>
      simp [exRank] at hl; subst hl; simp at ho; subst ho
      simp [Own.chan] at hq; subst hq
      exact ⟨by simp [exRank], fun _ => by simp [exRank]⟩
    | 3 =>
      simp [exRank] at hl; subst hl; simp at ho; subst ho
      simp [Own.chan] at hq; subst hq
      exact ⟨by simp [exRank], fun _ => by simp [exRank]⟩
    | b + 4 => simp [exRank] at hl

/-- The hypotheses of C41 hold of it (with rank = channel number), and it does go through nested locks: after five steps
thread 0 holds 2 and 1. Meets the hypotheses of `C41_no_deadlock_partial`, `C41_all_finish_partial`. -/
example : (∀ us ∈ exRankPlain, ∀ u ∈ us, u.Plain (exRank []).home id) ∧
    Acyclic id (Exposed (exRank (exRankPlain.map UAct.instrsL))) (exRank (exRankPlain.map UAct.instrsL)) ∧
    ∃ c', Steps (exRank (exRankPlain.map UAct.instrsL)) 5 c' ∧ c'.owner 2 = some 0 ∧ c'.owner 1 = some 0 := by
  refine ⟨?_, exRank_acyclic ?_, _, steps_of_runs (ts := [0, 0, 0, 0, 0]) rfl, rfl, rfl⟩
  · intro us hus u hu
    simp [exRankPlain] at hus
    rcases hus with rfl | rfl <;> simp at hu <;> rcases hu with rfl | rfl | rfl <;> simp [UAct.Plain, exRank, Own.chan]
  · intro x hx
    simp [exRankPlain, UAct.instrsL, UAct.instrs] at hx
    rcases hx with rfl | rfl <;> simp

/-- The hypotheses of C53 hold of it too, with wakers: after seven steps thread 2, inside a critical section of channel 2, is going
to lock channel 0. Meets the hypotheses of `C53_no_deadlock_partial`, `C53_all_finish_partial`. -/
example : Start (exRank (exRankWaker.map UAct.instrsL)) exRankWaker ∧ (∀ us ∈ exRankWaker, UAct.PoliteL (exRank []).home id [] us) ∧
    Acyclic id (Exposed (exRank (exRankWaker.map UAct.instrsL))) (exRank (exRankWaker.map UAct.instrsL)) ∧
    ∃ c', Steps (exRank (exRankWaker.map UAct.instrsL)) 7 c' ∧ c'.owner 2 = some 2 ∧ c'.owner 0 = some 2 := by
  refine ⟨⟨fun _ => rfl, rfl, ?_⟩, ?_, exRank_acyclic ?_, _, steps_of_runs (ts := [2, 2, 2, 2, 2, 2, 2]) rfl, rfl, rfl⟩
  · simp [exRankWaker, exRankPlain, UAct.UsesL, UAct.Uses, exRank]
  · simp [exRankWaker, exRankPlain, UAct.PoliteL, UAct.Polite, exRank, Own.chan]
  · intro x hx
    simp [exRankWaker, exRankPlain, UAct.instrsL, UAct.instrs] at hx
    rcases hx with rfl | rfl | rfl <;> simp

/-- An instance of the hypotheses of `C53_ordinary`: two threads, messages without references, a parked send. -/
example : ∃ (c : Cfg) (uss : List (List UAct)), (∀ p, c.owner p = none) ∧ c.th = uss.map UAct.instrsL ∧
    (∀ us ∈ uss, ∀ u ∈ us, u.Simple c.home) ∧ (∀ l ∈ c.queued, ∀ o ∈ l, o = .other) ∧ (∀ l ∈ c.cell, ∀ o ∈ l, o = .other) ∧
    (∀ (p : Nat) l, c.parked[p]? = some l → ∀ b ∈ l, c.home b = p) ∧ c.queued = [[.other, .other]] ∧ c.parked = [[1]] ∧
    uss = [[.call 0 [.look 0, .put 0 .other], .destroy (.strong 0)], [.recv 0, .destroy (.mailbox 0)]] := by
  refine ⟨⟨fun _ => 0, fun _ => 2, fun _ => 1, fun _ => none, fun _ => 1, [[.other, .other]], [[1]], [[], [.other]], _⟩, _,
    fun _ => rfl, rfl, ?_, ?_, ?_, ?_, rfl, rfl, rfl⟩
  · simp [UAct.Simple]
  · simp
  · simp
  · intro p l hl b hb
    match p with
    | 0 => rfl
    | p + 1 => simp at hl

end Xtra.Multi
