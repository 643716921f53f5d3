import Verif.Util
/-!
# The shutdown protocol under weak memory (C44)

`Model.lean` treats the two reference counters as sequentially consistent. Here the parts of the code that use them without holding the
lock, or whose correctness depends on what a load of them returns, are modelled under a weak, view-based memory model:

* dropping a strong reference: `Chan::on_sender_dropped`, `shutdown_waiting_receivers` (`xtra/src/chan.rs:82-91, 214-231`);
* `Chan::try_recv` on empty queues (`chan.rs:161-197`): load of `sender_count` inside the lock, registration;
* `TxStrong::try_new`, i.e. `WeakAddress::try_upgrade` (`xtra/src/chan/ptr.rs:130-156`): relaxed load and CAS loop;
* dropping a mailbox: `Chan::on_receiver_dropped`, `shutdown_waiting_senders` (`chan.rs:64-73, 244-259`), of which only the notification
  of the join handles matters here;
* `Chan::disconnect_listener` (`chan.rs:261-277`), i.e. `Address::join` and `scoped`, with `is_connected` (`chan.rs:199-202`).

**Memory.** Every counter has a modification order (a list, oldest first). Every thread has a view: for each location the position up to
which it must have seen it. A load returns the value at *any* position not before the thread's view (which then moves there). A
read-modify-write reads the newest value and appends. Views travel only through the channel's mutex, and through the sequentially
consistent fences inside `event_listener` (`Event::notify` starts with one, `Event::listen` ends with one). A new thread starts with the
empty view, even if it was told about the channel by another one. All this is weaker than C11/Rust gives: the orderings `Release`,
`Acquire` and `SeqCst` of the counter operations themselves are ignored, i.e. treated as `Relaxed`. So every behaviour of the real
program is one of the model; the theorems hold a fortiori. (As usual for view-based models there are no "out of thin air" loads.)

**Simplifications.** The queues are taken to be empty when a receive looks at them (a receive that finds a message does not get to the
load). What else can happen to a registered receive, namely to be given a message, is the rule `serve`.
-/

set_option linter.unusedSimpArgs false

namespace Xtra.Weak

/-- How far a thread (the mutex, the global fence) has seen `sender_count`, `receiver_count` and the listener list. -/
structure View where
  s : Nat
  r : Nat
  l : Nat
  deriving DecidableEq, Repr

/-- Nothing seen but the initial values. -/
def View.bot : View := ⟨0, 0, 0⟩

/-- Least upper bound. -/
def View.join (a b : View) : View := ⟨max a.s b.s, max a.r b.r, max a.l b.l⟩

/-- Program counter of a thread. The states without successor: `done`, `waits`, `shut`, `upOk`, `upNo`, `joins`, `joinNone`. -/
inductive Pc where
  /-- finished a drop -/
  | done
  /-- about to `sender_count.fetch_sub` (`chan.rs:84`) -/
  | sSub
  /-- it was the last: about to lock (`chan.rs:216`) -/
  | sLock
  /-- about to `mem::take(&mut inner.waiting_receivers_handles)` (`chan.rs:225`) -/
  | sTake
  /-- about to unlock (`chan.rs:226`) -/
  | sUnlock (q : List Nat)
  /-- about to `notify_channel_shutdown` the taken handles (`chan.rs:228-230`) -/
  | sNotify (q : List Nat)
  /-- `try_recv`: about to lock (`chan.rs:165`) -/
  | rLock
  /-- about to load `sender_count` (`chan.rs:187`) -/
  | rLoad
  /-- about to register (`chan.rs:191-193`) -/
  | rReg
  /-- about to unlock and to return: waiting on a cell, or ready with the shutdown notice -/
  | rUnlock (c : Option Nat)
  /-- the receive returned `Pending`, waiting on cell `c` -/
  | waits (c : Nat)
  /-- the receive yielded the shutdown notice -/
  | shut
  /-- `try_upgrade`: about to load (`ptr.rs:137`) -/
  | uLoad
  /-- about to `compare_exchange_weak(n, n + 1)` (`ptr.rs:148-151`) -/
  | uCas (n : Nat)
  /-- `try_upgrade` returned `Some` -/
  | upOk
  /-- `try_upgrade` returned `None` -/
  | upNo
  /-- about to `receiver_count.fetch_sub` (`chan.rs:66`) -/
  | mSub
  /-- it was the last: about to lock (`chan.rs:245`) -/
  | mLock
  /-- about to call `on_shutdown.notify(usize::MAX)` (`chan.rs:250`), which begins with a fence -/
  | mFence
  /-- in `Event::notify`: about to load the flag "there are listeners not notified" -/
  | mCheck
  /-- in `Event::notify`: about to lock the list and to notify all -/
  | mNotify
  /-- about to unlock (`chan.rs:259`) -/
  | mUnlock
  /-- `disconnect_listener`: about to `on_shutdown.listen()` (`chan.rs:270`): insert a listener -/
  | jInsert
  /-- in `Event::listen`: about to execute the fence -/
  | jFence (l : Nat)
  /-- `is_connected`: about to load `receiver_count` (`chan.rs:200`) -/
  | jLoadR (l : Nat)
  /-- `is_connected`: about to load `sender_count` (`chan.rs:201`) -/
  | jLoadS (l : Nat)
  /-- `disconnect_listener` returned `Some(listener l)` -/
  | joins (l : Nat)
  /-- `disconnect_listener` returned `None` -/
  | joinNone
  deriving DecidableEq, Repr

/-- The call has returned. -/
def Pc.final : Pc → Bool
  | .done | .waits _ | .shut | .upOk | .upNo | .joins _ | .joinNone => true
  | _ => false

/-- The oneshot of a receive that was made to wait. -/
inductive Cell where
  | empty
  /-- fulfilled with a message (or with the news of a broadcast) -/
  | msg
  /-- fulfilled with the shutdown notice -/
  | shut
  deriving DecidableEq, Repr

/-- A thread. -/
abbrev T := Pc × View

/-- The state. -/
structure St where
  /-- modification order of `Chan::sender_count`, oldest first -/
  sc : List Nat
  /-- modification order of `Chan::receiver_count` -/
  rc : List Nat
  /-- modification order of the flag of `event_listener::Event`: there are listeners that were not notified -/
  fl : List Bool
  /-- holder of the mutex `Chan::chan` -/
  lock : Option Nat
  /-- view stored in the mutex by the latest unlock -/
  lockV : View
  /-- view of the sequentially consistent fences so far -/
  fenceV : View
  /-- `Inner::waiting_receivers_handles` -/
  wRx : List Nat
  /-- oneshots of the receives that were made to wait -/
  cells : List Cell
  /-- listeners: position in `fl` of their insertion (ghost), and whether they have been notified -/
  lst : List (Nat × Bool)
  /-- strong references that exist and are not being dropped -/
  strong : Nat
  /-- mailbox references that exist and are not being dropped -/
  boxes : Nat
  th : List T
  deriving DecidableEq, Repr

/-- A fresh channel: one strong address, one mailbox. -/
def init : St where
  sc := [1]; rc := [1]; fl := [false]; lock := none; lockV := .bot; fenceV := .bot
  wRx := []; cells := []; lst := []; strong := 1; boxes := 1; th := []

/-- Newest value of a counter. -/
def cur (h : List Nat) : Nat := h.getLast?.getD 0

/-- The effect of thread `t` moving to `p` with view `v`. -/
def St.go (s : St) (t : Nat) (p : Pc) (v : View) : St := { s with th := s.th.set t (p, v) }

/-- One step of the system. -/
inductive Step : St → St → Prop
  /-- a strong reference is cloned (`chan.rs:76-79`) by somebody who holds one -/
  | cloneS {s : St} : 0 < s.strong → Step s { s with sc := s.sc ++ [cur s.sc + 1], strong := s.strong + 1 }
  /-- a mailbox reference is cloned (`chan.rs:59-61`) -/
  | cloneR {s : St} : 0 < s.boxes → Step s { s with rc := s.rc ++ [cur s.rc + 1], boxes := s.boxes + 1 }
  /-- the drop of a strong reference begins -/
  | dropS {s : St} : 0 < s.strong → Step s { s with strong := s.strong - 1, th := s.th ++ [(.sSub, .bot)] }
  /-- the drop of a mailbox reference begins -/
  | dropR {s : St} : 0 < s.boxes → Step s { s with boxes := s.boxes - 1, th := s.th ++ [(.mSub, .bot)] }
  /-- a receive begins -/
  | recv {s : St} : Step s { s with th := s.th ++ [(.rLock, .bot)] }
  /-- a `try_upgrade` begins -/
  | up {s : St} : Step s { s with th := s.th ++ [(.uLoad, .bot)] }
  /-- a `join` begins -/
  | join {s : St} : Step s { s with th := s.th ++ [(.jInsert, .bot)] }
  /-- somebody else, holding the lock, fulfils the first waiting receiver (`chan.rs:385-394`) -/
  | serve {s : St} {c : Nat} {q : List Nat} : s.lock = none → s.wRx = c :: q → s.cells[c]? = some .empty →
      Step s { s with wRx := q, cells := s.cells.set c .msg }
  | sSubLast {s : St} {t : Nat} {v : View} : s.th[t]? = some (.sSub, v) → cur s.sc = 1 →
      Step s ({ s with sc := s.sc ++ [cur s.sc - 1] }.go t .sLock { v with s := s.sc.length })
  | sSubMore {s : St} {t : Nat} {v : View} : s.th[t]? = some (.sSub, v) → cur s.sc ≠ 1 →
      Step s ({ s with sc := s.sc ++ [cur s.sc - 1] }.go t .done { v with s := s.sc.length })
  | sLock {s : St} {t : Nat} {v : View} : s.th[t]? = some (.sLock, v) → s.lock = none →
      Step s ({ s with lock := some t }.go t .sTake (v.join s.lockV))
  | sTake {s : St} {t : Nat} {v : View} : s.th[t]? = some (.sTake, v) →
      Step s ({ s with wRx := [] }.go t (.sUnlock s.wRx) v)
  | sUnlock {s : St} {t : Nat} {v : View} {q : List Nat} : s.th[t]? = some (.sUnlock q, v) →
      Step s ({ s with lock := none, lockV := v }.go t (.sNotify q) v)
  | sNotify {s : St} {t : Nat} {v : View} {c : Nat} {q : List Nat} : s.th[t]? = some (.sNotify (c :: q), v) →
      s.cells[c]? = some .empty → Step s ({ s with cells := s.cells.set c .shut }.go t (.sNotify q) v)
  | sNotifyFull {s : St} {t : Nat} {v : View} {c : Nat} {q : List Nat} : s.th[t]? = some (.sNotify (c :: q), v) →
      s.cells[c]? ≠ some Cell.empty → Step s (s.go t (.sNotify q) v)
  | sEnd {s : St} {t : Nat} {v : View} : s.th[t]? = some (.sNotify [], v) → Step s (s.go t .done v)
  | rLock {s : St} {t : Nat} {v : View} : s.th[t]? = some (.rLock, v) → s.lock = none →
      Step s ({ s with lock := some t }.go t .rLoad (v.join s.lockV))
  | rLoadZero {s : St} {t k : Nat} {v : View} : s.th[t]? = some (.rLoad, v) → v.s ≤ k → s.sc[k]? = some 0 →
      Step s (s.go t (.rUnlock none) { v with s := k })
  | rLoadMore {s : St} {t k n : Nat} {v : View} : s.th[t]? = some (.rLoad, v) → v.s ≤ k → s.sc[k]? = some n → n ≠ 0 →
      Step s (s.go t .rReg { v with s := k })
  | rReg {s : St} {t : Nat} {v : View} : s.th[t]? = some (.rReg, v) →
      Step s ({ s with wRx := s.wRx ++ [s.cells.length], cells := s.cells ++ [Cell.empty] }.go t (.rUnlock (some s.cells.length)) v)
  | rUnlockWait {s : St} {t c : Nat} {v : View} : s.th[t]? = some (.rUnlock (some c), v) →
      Step s ({ s with lock := none, lockV := v }.go t (.waits c) v)
  | rUnlockShut {s : St} {t : Nat} {v : View} : s.th[t]? = some (.rUnlock none, v) →
      Step s ({ s with lock := none, lockV := v }.go t .shut v)
  | uLoadZero {s : St} {t k : Nat} {v : View} : s.th[t]? = some (.uLoad, v) → v.s ≤ k → s.sc[k]? = some 0 →
      Step s (s.go t .upNo { v with s := k })
  | uLoadMore {s : St} {t k n : Nat} {v : View} : s.th[t]? = some (.uLoad, v) → v.s ≤ k → s.sc[k]? = some n → n ≠ 0 →
      Step s (s.go t (.uCas n) { v with s := k })
  | uCasOk {s : St} {t n : Nat} {v : View} : s.th[t]? = some (.uCas n, v) → cur s.sc = n →
      Step s ({ s with sc := s.sc ++ [n + 1], strong := s.strong + 1 }.go t .upOk { v with s := s.sc.length })
  | uCasFailZero {s : St} {t n k : Nat} {v : View} : s.th[t]? = some (.uCas n, v) → v.s ≤ k → s.sc[k]? = some 0 →
      Step s (s.go t .upNo { v with s := k })
  | uCasFailMore {s : St} {t n k n' : Nat} {v : View} : s.th[t]? = some (.uCas n, v) → v.s ≤ k → s.sc[k]? = some n' → n' ≠ 0 →
      Step s (s.go t (.uCas n') { v with s := k })
  | mSubLast {s : St} {t : Nat} {v : View} : s.th[t]? = some (.mSub, v) → cur s.rc = 1 →
      Step s ({ s with rc := s.rc ++ [cur s.rc - 1] }.go t .mLock { v with r := s.rc.length })
  | mSubMore {s : St} {t : Nat} {v : View} : s.th[t]? = some (.mSub, v) → cur s.rc ≠ 1 →
      Step s ({ s with rc := s.rc ++ [cur s.rc - 1] }.go t .done { v with r := s.rc.length })
  | mLock {s : St} {t : Nat} {v : View} : s.th[t]? = some (.mLock, v) → s.lock = none →
      Step s ({ s with lock := some t }.go t .mFence (v.join s.lockV))
  | mFence {s : St} {t : Nat} {v : View} : s.th[t]? = some (.mFence, v) →
      Step s ({ s with fenceV := v.join s.fenceV }.go t .mCheck (v.join s.fenceV))
  | mCheckNone {s : St} {t k : Nat} {v : View} : s.th[t]? = some (.mCheck, v) → v.l ≤ k → s.fl[k]? = some false →
      Step s (s.go t .mUnlock { v with l := k })
  | mCheckSome {s : St} {t k : Nat} {v : View} : s.th[t]? = some (.mCheck, v) → v.l ≤ k → s.fl[k]? = some true →
      Step s (s.go t .mNotify { v with l := k })
  | mNotify {s : St} {t : Nat} {v : View} : s.th[t]? = some (.mNotify, v) →
      Step s ({ s with lst := s.lst.map fun (x : Nat × Bool) => (x.1, true), fl := s.fl ++ [false] }.go t .mUnlock { v with l := s.fl.length })
  | mUnlock {s : St} {t : Nat} {v : View} : s.th[t]? = some (.mUnlock, v) →
      Step s ({ s with lock := none, lockV := v }.go t .done v)
  | jInsert {s : St} {t : Nat} {v : View} : s.th[t]? = some (.jInsert, v) →
      Step s ({ s with lst := s.lst ++ [(s.fl.length, false)], fl := s.fl ++ [true] }.go t (.jFence s.lst.length)
        { v with l := s.fl.length })
  | jFence {s : St} {t l : Nat} {v : View} : s.th[t]? = some (.jFence l, v) →
      Step s ({ s with fenceV := v.join s.fenceV }.go t (.jLoadR l) (v.join s.fenceV))
  | jLoadRZero {s : St} {t l k : Nat} {v : View} : s.th[t]? = some (.jLoadR l, v) → v.r ≤ k → s.rc[k]? = some 0 →
      Step s (s.go t .joinNone { v with r := k })
  | jLoadRMore {s : St} {t l k n : Nat} {v : View} : s.th[t]? = some (.jLoadR l, v) → v.r ≤ k → s.rc[k]? = some n → n ≠ 0 →
      Step s (s.go t (.jLoadS l) { v with r := k })
  | jLoadSZero {s : St} {t l k : Nat} {v : View} : s.th[t]? = some (.jLoadS l, v) → v.s ≤ k → s.sc[k]? = some 0 →
      Step s (s.go t .joinNone { v with s := k })
  | jLoadSMore {s : St} {t l k n : Nat} {v : View} : s.th[t]? = some (.jLoadS l, v) → v.s ≤ k → s.sc[k]? = some n → n ≠ 0 →
      Step s (s.go t (.joins l) { v with s := k })

/-- Any number of steps. -/
inductive Steps : St → St → Prop
  | refl {s : St} : Steps s s
  | snoc {s s1 s2 : St} : Steps s s1 → Step s1 s2 → Steps s s2

/-- The oneshot `c` has been fulfilled. -/
def St.filled (s : St) (c : Nat) : Prop := s.cells[c]? = some .msg ∨ s.cells[c]? = some .shut

/-- All calls have returned. -/
def St.quiet (s : St) : Prop := ∀ x ∈ s.th, x.1.final = true

/-! ## Proof -/

/-- Weight of threads about to decrement `sender_count`. -/
def wS : T → Nat
  | (.sSub, _) => 1
  | _ => 0

/-- Weight of threads about to decrement `receiver_count`. -/
def wR : T → Nat
  | (.mSub, _) => 1
  | _ => 0

/-- The thread holds the lock at this point. -/
def Pc.holds : Pc → Bool
  | .sTake | .sUnlock _ | .rLoad | .rReg | .rUnlock _ | .mFence | .mCheck | .mNotify | .mUnlock => true
  | _ => false

theorem cur_snoc (h : List Nat) (n : Nat) : cur (h ++ [n]) = n := by simp [cur]

theorem set_cases' {α : Type} {l : List α} {i j : Nat} {x y : α} (h : (l.set i x)[j]? = some y) :
    (j = i ∧ y = x) ∨ (j ≠ i ∧ l[j]? = some y) := by
  by_cases e : i = j
  · subst e
    by_cases hl : i < l.length
    · simp [List.getElem?_set, hl] at h; exact .inl ⟨rfl, h.symm⟩
    · simp [List.getElem?_set, hl] at h
  · simp [List.getElem?_set, e] at h; exact .inr ⟨fun h => e h.symm, h⟩

theorem snoc_cases' {α : Type} {l : List α} {j : Nat} {x y : α} (h : (l ++ [x])[j]? = some y) :
    (j = l.length ∧ y = x) ∨ l[j]? = some y := by
  by_cases e : j < l.length
  · rw [List.getElem?_append_left e] at h; exact .inr h
  · rw [List.getElem?_append_right (by omega)] at h
    have : j - l.length = 0 := by
      have := (List.getElem?_eq_some_iff.1 h).1
      simp at this; omega
    rw [this] at h; simp at h
    exact .inl ⟨by omega, h.symm⟩

/-- The counters count. -/
structure InvA (s : St) : Prop where
  sne : s.sc ≠ []
  rne : s.rc ≠ []
  scur : cur s.sc = s.strong + sumBy wS s.th
  rcur : cur s.rc = s.boxes + sumBy wR s.th
  szero : ∀ k : Nat, s.sc[k]? = some 0 → k + 1 = s.sc.length
  rzero : ∀ k : Nat, s.rc[k]? = some 0 → k + 1 = s.rc.length
  cas : ∀ (t n : Nat) v, s.th[t]? = some (.uCas n, v) → n ≠ 0

theorem cur_eq {h : List Nat} (hne : h ≠ []) : h[h.length - 1]? = some (cur h) := by
  rw [← List.getLast?_eq_getElem?]
  cases hg : h.getLast? with
  | none => simp at hg; exact absurd hg hne
  | some x => simp [cur, hg]

theorem zero_snoc {h : List Nat} {n : Nat} (hne : h ≠ []) (hz : ∀ k : Nat, h[k]? = some 0 → k + 1 = h.length) (hp : 0 < cur h) :
    ∀ k : Nat, (h ++ [n])[k]? = some 0 → k + 1 = (h ++ [n]).length := by
  intro k hk
  rcases snoc_cases' hk with ⟨rfl, -⟩ | hk
  · simp
  · have h1 := hz k hk
    have h2 := cur_eq hne
    rw [← h1] at h2; simp [hk] at h2; omega

theorem invA_cas {s s' : St} (h : Step s s') (i : InvA s) : ∀ (t n : Nat) v, s'.th[t]? = some (.uCas n, v) → n ≠ 0 := by
  have key : ∀ {t : Nat} {p : Pc} {v' : View}, (∀ n, p = .uCas n → n ≠ 0) →
      ∀ (u n : Nat) v, (s.th.set t (p, v'))[u]? = some (.uCas n, v) → n ≠ 0 := by
    intro t p v' hp u n v hu
    rcases set_cases' hu with ⟨rfl, he⟩ | ⟨-, hu⟩
    · simp at he; exact hp n he.1.symm
    · exact i.cas u n v hu
  have key2 : ∀ {p : Pc} {v' : View}, (∀ n, p = .uCas n → n ≠ 0) →
      ∀ (u n : Nat) v, (s.th ++ [(p, v')])[u]? = some (.uCas n, v) → n ≠ 0 := by
    intro p v' hp u n v hu
    rcases snoc_cases' hu with ⟨rfl, he⟩ | hu
    · simp at he; exact hp n he.1.symm
    · exact i.cas u n v hu
  cases h
  case cloneS => exact i.cas
  case cloneR => exact i.cas
  case serve => exact i.cas
  case uLoadMore hn => exact key (by simp; exact hn)
  case uCasFailMore hn => exact key (by simp; exact hn)
  all_goals first
    | exact key (by simp)
    | exact key2 (by simp)

theorem invA_step {s s' : St} (h : Step s s') (i : InvA s) : InvA s' := by
  have hc := invA_cas h i
  obtain ⟨sne, rne, scur, rcur, szero, rzero, cas⟩ := i
  have hS : ∀ {t : Nat} {x : T} (y : T), s.th[t]? = some x → sumBy wS (s.th.set t y) + wS x = sumBy wS s.th + wS y :=
    fun y h => sumBy_set wS y h
  have hR : ∀ {t : Nat} {x : T} (y : T), s.th[t]? = some x → sumBy wR (s.th.set t y) + wR x = sumBy wR s.th + wR y :=
    fun y h => sumBy_set wR y h
  have key : ∀ {t : Nat} {x y : T}, s.th[t]? = some x → wS x = 0 → wR x = 0 → wS y = 0 → wR y = 0 →
      cur s.sc = s.strong + sumBy wS (s.th.set t y) ∧ cur s.rc = s.boxes + sumBy wR (s.th.set t y) := by
    intro t x y ht a b c d
    have := hS y ht; have := hR y ht; omega
  cases h
  case cloneS hp => exact ⟨by simp, rne, by simp [cur_snoc]; omega, rcur, zero_snoc sne szero (by omega), rzero, hc⟩
  case cloneR hp => exact ⟨sne, by simp, scur, by simp [cur_snoc]; omega, szero, zero_snoc rne rzero (by omega), hc⟩
  case dropS hp => exact ⟨sne, rne, by simp [wS]; omega, by simp [wR]; omega, szero, rzero, hc⟩
  case dropR hp => exact ⟨sne, rne, by simp [wS]; omega, by simp [wR]; omega, szero, rzero, hc⟩
  case recv => exact ⟨sne, rne, by simp [wS]; omega, by simp [wR]; omega, szero, rzero, hc⟩
  case up => exact ⟨sne, rne, by simp [wS]; omega, by simp [wR]; omega, szero, rzero, hc⟩
  case join => exact ⟨sne, rne, by simp [wS]; omega, by simp [wR]; omega, szero, rzero, hc⟩
  case serve => exact ⟨sne, rne, scur, rcur, szero, rzero, hc⟩
  case sSubLast t v ht h1 =>
    have h1 := hS (.sLock, { v with s := s.sc.length }) ht
    have h2 := hR (.sLock, { v with s := s.sc.length }) ht
    simp [wS] at h1; simp [wR] at h2
    exact ⟨by simp [St.go], rne, by simp [St.go, cur_snoc]; omega, by simp [St.go]; omega, zero_snoc sne szero (by omega), rzero, hc⟩
  case sSubMore t v ht h1 =>
    have h1 := hS (.done, { v with s := s.sc.length }) ht
    have h2 := hR (.done, { v with s := s.sc.length }) ht
    simp [wS] at h1; simp [wR] at h2
    exact ⟨by simp [St.go], rne, by simp [St.go, cur_snoc]; omega, by simp [St.go]; omega, zero_snoc sne szero (by omega), rzero, hc⟩
  case mSubLast t v ht h1 =>
    have h1 := hS (.mLock, { v with r := s.rc.length }) ht
    have h2 := hR (.mLock, { v with r := s.rc.length }) ht
    simp [wS] at h1; simp [wR] at h2
    exact ⟨sne, by simp [St.go], by simp [St.go]; omega, by simp [St.go, cur_snoc]; omega, szero, zero_snoc rne rzero (by omega), hc⟩
  case mSubMore t v ht h1 =>
    have h1 := hS (.done, { v with r := s.rc.length }) ht
    have h2 := hR (.done, { v with r := s.rc.length }) ht
    simp [wS] at h1; simp [wR] at h2
    exact ⟨sne, by simp [St.go], by simp [St.go]; omega, by simp [St.go, cur_snoc]; omega, szero, zero_snoc rne rzero (by omega), hc⟩
  case uCasOk t n v ht hn =>
    have h1 := hS (.upOk, { v with s := s.sc.length }) ht
    have h2 := hR (.upOk, { v with s := s.sc.length }) ht
    have h3 := cas t n v ht
    simp [wS] at h1; simp [wR] at h2
    exact ⟨by simp [St.go], rne, by simp [St.go, cur_snoc, h1]; omega, by simp [St.go, h2, rcur],
      zero_snoc sne szero (by omega), rzero, hc⟩
  case sNotify ht _ => exact ⟨sne, rne, (key ht rfl rfl rfl rfl).1, (key ht rfl rfl rfl rfl).2, szero, rzero, hc⟩
  case sNotifyFull ht _ => exact ⟨sne, rne, (key ht rfl rfl rfl rfl).1, (key ht rfl rfl rfl rfl).2, szero, rzero, hc⟩
  case sLock ht _ => exact ⟨sne, rne, (key ht rfl rfl rfl rfl).1, (key ht rfl rfl rfl rfl).2, szero, rzero, hc⟩
  case rLock ht _ => exact ⟨sne, rne, (key ht rfl rfl rfl rfl).1, (key ht rfl rfl rfl rfl).2, szero, rzero, hc⟩
  case mLock ht _ => exact ⟨sne, rne, (key ht rfl rfl rfl rfl).1, (key ht rfl rfl rfl rfl).2, szero, rzero, hc⟩
  case rLoadZero ht _ _ => exact ⟨sne, rne, (key ht rfl rfl rfl rfl).1, (key ht rfl rfl rfl rfl).2, szero, rzero, hc⟩
  case rLoadMore ht _ _ _ => exact ⟨sne, rne, (key ht rfl rfl rfl rfl).1, (key ht rfl rfl rfl rfl).2, szero, rzero, hc⟩
  case uLoadZero ht _ _ => exact ⟨sne, rne, (key ht rfl rfl rfl rfl).1, (key ht rfl rfl rfl rfl).2, szero, rzero, hc⟩
  case uLoadMore ht _ _ _ => exact ⟨sne, rne, (key ht rfl rfl rfl rfl).1, (key ht rfl rfl rfl rfl).2, szero, rzero, hc⟩
  case uCasFailZero ht _ _ => exact ⟨sne, rne, (key ht rfl rfl rfl rfl).1, (key ht rfl rfl rfl rfl).2, szero, rzero, hc⟩
  case uCasFailMore ht _ _ _ => exact ⟨sne, rne, (key ht rfl rfl rfl rfl).1, (key ht rfl rfl rfl rfl).2, szero, rzero, hc⟩
  case mCheckNone ht _ _ => exact ⟨sne, rne, (key ht rfl rfl rfl rfl).1, (key ht rfl rfl rfl rfl).2, szero, rzero, hc⟩
  case mCheckSome ht _ _ => exact ⟨sne, rne, (key ht rfl rfl rfl rfl).1, (key ht rfl rfl rfl rfl).2, szero, rzero, hc⟩
  case jLoadRZero ht _ _ => exact ⟨sne, rne, (key ht rfl rfl rfl rfl).1, (key ht rfl rfl rfl rfl).2, szero, rzero, hc⟩
  case jLoadRMore ht _ _ _ => exact ⟨sne, rne, (key ht rfl rfl rfl rfl).1, (key ht rfl rfl rfl rfl).2, szero, rzero, hc⟩
  case jLoadSZero ht _ _ => exact ⟨sne, rne, (key ht rfl rfl rfl rfl).1, (key ht rfl rfl rfl rfl).2, szero, rzero, hc⟩
  case jLoadSMore ht _ _ _ => exact ⟨sne, rne, (key ht rfl rfl rfl rfl).1, (key ht rfl rfl rfl rfl).2, szero, rzero, hc⟩
  all_goals
    rename_i ht
    exact ⟨sne, rne, (key ht rfl rfl rfl rfl).1, (key ht rfl rfl rfl rfl).2, szero, rzero, hc⟩

theorem invA_init : InvA init := by
  refine ⟨by simp [init], by simp [init], rfl, rfl, ?_, ?_, by simp [init]⟩ <;> intro k hk <;>
    (rcases k with _ | k <;> simp [init] at hk)

theorem invA {s : St} (h : Steps init s) : InvA s := by
  induction h with
  | refl => exact invA_init
  | snoc _ h ih => exact invA_step h ih

/-- The lock is held by who thinks so, and the holder has seen all that the lock knows. -/
structure InvL (s : St) : Prop where
  hold : ∀ (t : Nat) p v, s.th[t]? = some (p, v) → p.holds = true → s.lock = some t ∧ s.lockV.s ≤ v.s

theorem invL_step {s s' : St} (h : Step s s') (i : InvL s) : InvL s' := by
  obtain ⟨hold⟩ := i
  -- a holder keeps the lock
  have keep : ∀ {t : Nat} {p p' : Pc} {v v' : View}, s.th[t]? = some (p, v) → p.holds = true → v.s ≤ v'.s →
      ∀ (u : Nat) q w, (s.th.set t (p', v'))[u]? = some (q, w) → q.holds = true → s.lock = some u ∧ s.lockV.s ≤ w.s := by
    intro t p p' v v' ht hp hv u q w hu hq
    rcases set_cases' hu with ⟨rfl, he⟩ | ⟨-, hu⟩
    · simp at he; obtain ⟨rfl, rfl⟩ := he
      obtain ⟨h1, h2⟩ := hold _ _ _ ht hp
      exact ⟨h1, by omega⟩
    · exact hold _ _ _ hu hq
  -- a thread that does not hold it afterwards
  have free : ∀ {t : Nat} {p' : Pc} {v' : View}, p'.holds = false →
      ∀ (u : Nat) q w, (s.th.set t (p', v'))[u]? = some (q, w) → q.holds = true → s.lock = some u ∧ s.lockV.s ≤ w.s := by
    intro t p' v' hp u q w hu hq
    rcases set_cases' hu with ⟨rfl, he⟩ | ⟨-, hu⟩
    · simp at he; obtain ⟨rfl, rfl⟩ := he; simp [hp] at hq
    · exact hold _ _ _ hu hq
  -- locking
  have acq : ∀ {t : Nat} {p' : Pc} {v v' : View}, s.lock = none → v' = v.join s.lockV →
      ∀ (u : Nat) q w, (s.th.set t (p', v'))[u]? = some (q, w) → q.holds = true → some t = some u ∧ s.lockV.s ≤ w.s := by
    intro t p' v v' hl hv u q w hu hq
    rcases set_cases' hu with ⟨rfl, he⟩ | ⟨-, hu⟩
    · simp at he; obtain ⟨rfl, rfl⟩ := he
      subst hv; exact ⟨rfl, by simp [View.join]; omega⟩
    · have := hold _ _ _ hu hq; simp [hl] at this
  -- unlocking
  have rel : ∀ {t : Nat} {p p' : Pc} {v : View}, s.th[t]? = some (p, v) → p.holds = true → p'.holds = false →
      ∀ (u : Nat) q w, (s.th.set t (p', v))[u]? = some (q, w) → q.holds = true → none = some u ∧ v.s ≤ w.s := by
    intro t p p' v ht hp hp' u q w hu hq
    exfalso
    rcases set_cases' hu with ⟨rfl, he⟩ | ⟨hne, hu⟩
    · simp at he; obtain ⟨rfl, rfl⟩ := he; simp [hp'] at hq
    · have h1 := (hold _ _ _ hu hq).1; have h2 := (hold _ _ _ ht hp).1
      rw [h1] at h2; simp at h2; exact hne h2
  have new : ∀ {p' : Pc} {v' : View}, p'.holds = false →
      ∀ (u : Nat) q w, (s.th ++ [(p', v')])[u]? = some (q, w) → q.holds = true → s.lock = some u ∧ s.lockV.s ≤ w.s := by
    intro p' v' hp u q w hu hq
    rcases snoc_cases' hu with ⟨rfl, he⟩ | hu
    · simp at he; obtain ⟨rfl, rfl⟩ := he; simp [hp] at hq
    · exact hold _ _ _ hu hq
  constructor
  cases h
  case cloneS => exact hold
  case cloneR => exact hold
  case serve => exact hold
  case sLock ht hl => exact acq hl rfl
  case rLock ht hl => exact acq hl rfl
  case mLock ht hl => exact acq hl rfl
  case sUnlock ht => exact rel ht rfl rfl
  case rUnlockWait ht => exact rel ht rfl rfl
  case rUnlockShut ht => exact rel ht rfl rfl
  case mUnlock ht => exact rel ht rfl rfl
  case mFence ht => exact keep ht rfl (by simp [View.join]; omega)
  case sTake ht => exact keep ht rfl (Nat.le_refl _)
  case rReg ht => exact keep ht rfl (Nat.le_refl _)
  case mNotify ht => exact keep ht rfl (Nat.le_refl _)
  case mCheckNone ht _ _ => exact keep ht rfl (Nat.le_refl _)
  case mCheckSome ht _ _ => exact keep ht rfl (Nat.le_refl _)
  case rLoadZero ht hk _ => exact keep ht rfl hk
  case rLoadMore ht hk _ _ => exact keep ht rfl hk
  all_goals first
    | exact free rfl
    | exact new rfl

theorem invL {s : St} (h : Steps init s) : InvL s := by
  induction h with
  | refl => exact ⟨by simp [init]⟩
  | snoc _ h ih => exact invL_step h ih

/-- Some thread is at `p` (for some parameters) with a property of its view. -/
def Has (s : St) (P : Pc → View → Prop) : Prop := ∃ (t : Nat) (p : Pc) (v : View), s.th[t]? = some (p, v) ∧ P p v

/-- The thread that dropped the last strong reference has not taken the waiting receivers yet. -/
def Pending (s : St) : Pc → View → Prop := fun p v => (p = .sLock ∨ p = .sTake) ∧ s.sc.length ≤ v.s + 1

/-- It has taken them, but not released the lock. -/
def Taken (s : St) : Pc → View → Prop := fun p v => (∃ q, p = .sUnlock q) ∧ s.sc.length ≤ v.s + 1

/-- After the last strong reference is gone, the waiting receivers are taken, and nobody registers afterwards. -/
structure InvS (s : St) : Prop where
  pend : cur s.sc = 0 → Has s (Pending s) ∨ (s.wRx = [] ∧ (s.sc.length ≤ s.lockV.s + 1 ∨ Has s (Taken s)))
  reg : ∀ (t : Nat) v, s.th[t]? = some (.rReg, v) → cur s.sc = 0 → Has s fun p v => p = .sLock ∧ s.sc.length ≤ v.s + 1

theorem Has.set {s s' : St} {P : Pc → View → Prop} {t : Nat} {x y : T} (h : Has s P) (ht : s.th[t]? = some x)
    (hth : s'.th = s.th.set t y) (hxy : P x.1 x.2 → P y.1 y.2) : Has s' P := by
  obtain ⟨u, p, v, hu, hp⟩ := h
  by_cases e : t = u
  · subst e
    rw [ht] at hu; simp at hu; subst hu
    refine ⟨t, y.1, y.2, ?_, hxy hp⟩
    have := (List.getElem?_eq_some_iff.1 ht).1
    simp [hth, List.getElem?_set, this]
  · exact ⟨u, p, v, by simp [hth, List.getElem?_set, e, hu], hp⟩

theorem Has.snoc {s s' : St} {P : Pc → View → Prop} {y : T} (h : Has s P) (hth : s'.th = s.th ++ [y]) : Has s' P := by
  obtain ⟨u, p, v, hu, hp⟩ := h
  have := (List.getElem?_eq_some_iff.1 hu).1
  exact ⟨u, p, v, by rw [hth, List.getElem?_append_left this, hu], hp⟩

theorem Has.mono {s : St} {P Q : Pc → View → Prop} (h : Has s P) (hpq : ∀ p v, P p v → Q p v) : Has s Q := by
  obtain ⟨u, p, v, hu, hp⟩ := h; exact ⟨u, p, v, hu, hpq p v hp⟩

theorem invS_step {s s' : St} (h : Step s s') (a : InvA s) (l : InvL s) (i : InvS s) : InvS s' := by
  obtain ⟨pend, reg⟩ := i
  have inert : ∀ {t : Nat} {x y : T} {s' : St}, s.th[t]? = some x → s'.th = s.th.set t y → s'.sc = s.sc → s'.wRx = s.wRx →
      s.lockV.s ≤ s'.lockV.s → (x.1 ≠ .sLock ∧ x.1 ≠ .sTake ∧ ∀ q, x.1 ≠ .sUnlock q) → y.1 ≠ .rReg → InvS s' := by
    intro t x y s' ht hth hsc hw hl hx hy
    constructor
    · intro hc
      rw [hsc] at hc
      rcases pend hc with h1 | ⟨h1, h2 | h2⟩
      · left
        refine (h1.set ht hth ?_).mono (fun p v h => ?_)
        · rintro ⟨h | h, -⟩
          · exact absurd h hx.1
          · exact absurd h hx.2.1
        · simpa [Pending, hsc] using h
      · right; exact ⟨hw.trans h1, .inl (by rw [hsc]; omega)⟩
      · right; refine ⟨hw.trans h1, .inr ?_⟩
        refine (h2.set ht hth ?_).mono (fun p v h => ?_)
        · rintro ⟨⟨q, h⟩, -⟩
          exact absurd h (hx.2.2 q)
        · simpa [Taken, hsc] using h
    · intro u v hu hc
      rw [hsc] at hc
      rw [hth] at hu
      rcases set_cases' hu with ⟨rfl, he⟩ | ⟨-, hu⟩
      · subst he; exact absurd rfl hy
      · refine ((reg u v hu hc).set ht hth ?_).mono (fun p v h => by simpa [hsc] using h)
        rintro ⟨h, -⟩; exact absurd h hx.1
  have more : ∀ {s' : St}, (∀ (u : Nat) v, s'.th[u]? = some (.rReg, v) → True) → cur s'.sc ≠ 0 → InvS s' :=
    fun _ h => ⟨fun hc => absurd hc h, fun _ _ _ hc => absurd hc h⟩
  have new : ∀ {y : T} {s' : St}, s'.th = s.th ++ [y] → s'.sc = s.sc → s'.wRx = s.wRx → s'.lockV = s.lockV → y.1 ≠ .rReg → InvS s' := by
    intro y s' hth hsc hw hl hy
    constructor
    · intro hc
      rw [hsc] at hc
      rcases pend hc with h1 | ⟨h1, h2 | h2⟩
      · left; exact (h1.snoc hth).mono (fun p v h => by simpa [Pending, hsc] using h)
      · right; exact ⟨hw.trans h1, .inl (by rw [hsc, hl]; exact h2)⟩
      · right; exact ⟨hw.trans h1, .inr ((h2.snoc hth).mono (fun p v h => by simpa [Taken, hsc] using h))⟩
    · intro u v hu hc
      rw [hsc] at hc
      rw [hth] at hu
      rcases snoc_cases' hu with ⟨rfl, he⟩ | hu
      · subst he; exact absurd rfl hy
      · exact ((reg u v hu hc).snoc hth).mono (fun p v h => by simpa [hsc] using h)
  cases h
  case cloneS hp => exact more (fun _ _ _ => trivial) (by simp [cur_snoc])
  case uCasOk => exact more (fun _ _ _ => trivial) (by simp [St.go, cur_snoc])
  case sSubMore t v ht hn =>
    have h1 := le_sumBy wS ht; have h2 := a.scur; simp [wS] at h1
    exact more (fun _ _ _ => trivial) (by simp [St.go, cur_snoc]; omega)
  case sSubLast t v ht hn =>
    have hl := (List.getElem?_eq_some_iff.1 ht).1
    have hw : Has ({ s with sc := s.sc ++ [cur s.sc - 1] }.go t .sLock { v with s := s.sc.length })
        fun p w => p = .sLock ∧ (s.sc ++ [cur s.sc - 1]).length ≤ w.s + 1 :=
      ⟨t, .sLock, { v with s := s.sc.length }, by simp [St.go, hl], rfl, by simp⟩
    exact ⟨fun _ => .inl (hw.mono fun p v h => ⟨.inl h.1, h.2⟩), fun _ _ _ _ => hw⟩
  case sLock t v ht hl =>
    constructor
    · intro hc
      rcases pend hc with h1 | ⟨h1, h2 | h2⟩
      · left
        refine h1.set (y := (.sTake, v.join s.lockV)) ht rfl ?_
        rintro ⟨-, h⟩
        exact ⟨.inr rfl, by simp only [View.join, St.go] at h ⊢; omega⟩
      · right; exact ⟨h1, .inl h2⟩
      · exfalso
        obtain ⟨u, p, w, hu, ⟨q, rfl⟩, -⟩ := h2
        have := (l.hold _ _ _ hu rfl).1; simp [hl] at this
    · intro u w hu hc
      exfalso
      simp only [St.go] at hu
      rcases set_cases' hu with ⟨rfl, he⟩ | ⟨-, hu⟩
      · simp at he
      · have := (l.hold _ _ _ hu rfl).1; simp [hl] at this
  case sTake t v ht =>
    have hlk := (l.hold _ _ _ ht rfl).1
    constructor
    · intro hc
      rcases pend hc with ⟨u, p, w, hu, h1, h2⟩ | ⟨h1, h2 | h2⟩
      · by_cases e : u = t
        · subst e
          rw [ht] at hu; simp at hu; obtain ⟨rfl, rfl⟩ := hu
          have := (List.getElem?_eq_some_iff.1 ht).1
          right; exact ⟨rfl, .inr ⟨u, .sUnlock s.wRx, v, by simp [St.go, this], ⟨_, rfl⟩, h2⟩⟩
        · left
          exact ⟨u, p, w, by simp [St.go, List.getElem?_set, Ne.symm e, hu], h1, h2⟩
      · right; exact ⟨rfl, .inl h2⟩
      · exfalso
        obtain ⟨u, p, w, hu, ⟨q, rfl⟩, -⟩ := h2
        have := (l.hold _ _ _ hu rfl).1; rw [hlk] at this; simp at this; subst this; simp [ht] at hu
    · intro u w hu hc
      exfalso
      simp only [St.go] at hu
      rcases set_cases' hu with ⟨rfl, he⟩ | ⟨hne, hu⟩
      · simp at he
      · have := (l.hold _ _ _ hu rfl).1; rw [hlk] at this; simp at this; exact hne this.symm
  case sUnlock t v q ht =>
    obtain ⟨hlk, hlv⟩ := l.hold _ _ _ ht rfl
    constructor
    · intro hc
      rcases pend hc with h1 | ⟨h1, h2 | h2⟩
      · left
        refine h1.set (y := (.sNotify q, v)) ht rfl ?_
        rintro ⟨h | h, -⟩ <;> simp at h
      · right; exact ⟨h1, .inl (by simp only [St.go]; omega)⟩
      · right
        refine ⟨h1, .inl ?_⟩
        obtain ⟨u, p, w, hu, ⟨q, rfl⟩, h3⟩ := h2
        have := (l.hold _ _ _ hu rfl).1; rw [hlk] at this; simp at this; subst this
        rw [ht] at hu; simp at hu; obtain ⟨-, rfl⟩ := hu
        exact h3
    · intro u w hu hc
      exfalso
      simp only [St.go] at hu
      rcases set_cases' hu with ⟨rfl, he⟩ | ⟨hne, hu⟩
      · simp at he
      · have := (l.hold _ _ _ hu rfl).1; rw [hlk] at this; simp at this; exact hne this.symm
  case rLoadMore t k n v ht hk hn hn0 =>
    obtain ⟨hlk, hlv⟩ := l.hold _ _ _ ht rfl
    have hreg : cur s.sc = 0 → Has s fun p v => p = .sLock ∧ s.sc.length ≤ v.s + 1 := by
      intro hc
      rcases pend hc with ⟨u, p, w, hu, rfl | rfl, h2⟩ | ⟨h1, h2 | h2⟩
      · exact ⟨u, _, w, hu, rfl, h2⟩
      · exfalso
        have := (l.hold _ _ _ hu rfl).1; rw [hlk] at this; simp at this; subst this; simp [ht] at hu
      · exfalso
        have h3 := (List.getElem?_eq_some_iff.1 hn).1
        have h4 := cur_eq a.sne
        have : s.sc.length - 1 = k := by omega
        rw [this, hn, hc] at h4; simp at h4; exact hn0 h4
      · exfalso
        obtain ⟨u, p, w, hu, ⟨q, rfl⟩, -⟩ := h2
        have := (l.hold _ _ _ hu rfl).1; rw [hlk] at this; simp at this; subst this; simp [ht] at hu
    constructor
    · intro hc
      left
      refine Has.set (y := (.rReg, { v with s := k })) ((hreg hc).mono fun p v h => ⟨.inl h.1, h.2⟩) ht rfl ?_
      rintro ⟨h | h, -⟩ <;> simp at h
    · intro u w hu hc
      refine (hreg hc).set (y := (.rReg, { v with s := k })) ht rfl ?_
      rintro ⟨h, -⟩; simp at h
  case rReg t v ht =>
    obtain ⟨hlk, hlv⟩ := l.hold _ _ _ ht rfl
    constructor
    · intro hc
      left
      refine Has.set (y := (.rUnlock (some s.cells.length), v)) ((reg t v ht hc).mono fun p v h => ⟨.inl h.1, h.2⟩) ht rfl ?_
      rintro ⟨h | h, -⟩ <;> simp at h
    · intro u w hu hc
      exfalso
      simp only [St.go] at hu
      rcases set_cases' hu with ⟨rfl, he⟩ | ⟨hne, hu⟩
      · simp at he
      · have := (l.hold _ _ _ hu rfl).1; rw [hlk] at this; simp at this; exact hne this.symm
  case serve c q hl hw _ =>
    constructor
    · intro hc
      rcases pend hc with h1 | ⟨h1, -⟩
      · exact .inl h1
      · simp [hw] at h1
    · exact reg
  case rUnlockWait ht => exact inert ht rfl rfl rfl (l.hold _ _ _ ht rfl).2 (by simp) (by simp)
  case rUnlockShut ht => exact inert ht rfl rfl rfl (l.hold _ _ _ ht rfl).2 (by simp) (by simp)
  case mUnlock ht => exact inert ht rfl rfl rfl (l.hold _ _ _ ht rfl).2 (by simp) (by simp)
  case cloneR => exact ⟨pend, reg⟩
  case sNotify ht _ => exact inert ht rfl rfl rfl (Nat.le_refl _) (by simp) (by simp)
  case sNotifyFull ht _ => exact inert ht rfl rfl rfl (Nat.le_refl _) (by simp) (by simp)
  case dropS => exact new rfl rfl rfl rfl (by simp)
  case dropR => exact new rfl rfl rfl rfl (by simp)
  case recv => exact new rfl rfl rfl rfl (by simp)
  case up => exact new rfl rfl rfl rfl (by simp)
  case join => exact new rfl rfl rfl rfl (by simp)
  case rLock ht _ => exact inert ht rfl rfl rfl (Nat.le_refl _) (by simp) (by simp)
  case mLock ht _ => exact inert ht rfl rfl rfl (Nat.le_refl _) (by simp) (by simp)
  case rLoadZero ht _ _ => exact inert ht rfl rfl rfl (Nat.le_refl _) (by simp) (by simp)
  case uLoadZero ht _ _ => exact inert ht rfl rfl rfl (Nat.le_refl _) (by simp) (by simp)
  case uLoadMore ht _ _ _ => exact inert ht rfl rfl rfl (Nat.le_refl _) (by simp) (by simp)
  case uCasFailZero ht _ _ => exact inert ht rfl rfl rfl (Nat.le_refl _) (by simp) (by simp)
  case uCasFailMore ht _ _ _ => exact inert ht rfl rfl rfl (Nat.le_refl _) (by simp) (by simp)
  case mSubLast ht _ => exact inert ht rfl rfl rfl (Nat.le_refl _) (by simp) (by simp)
  case mSubMore ht _ => exact inert ht rfl rfl rfl (Nat.le_refl _) (by simp) (by simp)
  case mCheckNone ht _ _ => exact inert ht rfl rfl rfl (Nat.le_refl _) (by simp) (by simp)
  case mCheckSome ht _ _ => exact inert ht rfl rfl rfl (Nat.le_refl _) (by simp) (by simp)
  case jLoadRZero ht _ _ => exact inert ht rfl rfl rfl (Nat.le_refl _) (by simp) (by simp)
  case jLoadRMore ht _ _ _ => exact inert ht rfl rfl rfl (Nat.le_refl _) (by simp) (by simp)
  case jLoadSZero ht _ _ => exact inert ht rfl rfl rfl (Nat.le_refl _) (by simp) (by simp)
  case jLoadSMore ht _ _ _ => exact inert ht rfl rfl rfl (Nat.le_refl _) (by simp) (by simp)
  all_goals
    rename_i ht
    exact inert ht rfl rfl rfl (Nat.le_refl _) (by simp) (by simp)

theorem invS {s : St} (h : Steps init s) : InvS s := by
  induction h with
  | refl => exact ⟨by simp [init, cur], by simp [init]⟩
  | snoc h1 h ih => exact invS_step h (invA h1) (invL h1) ih

/-- Where the handle of a receive that is made to wait can be. -/
structure InvW (s : St) : Prop where
  wait : ∀ (t : Nat) p v c, s.th[t]? = some (p, v) → (p = .waits c ∨ p = .rUnlock (some c)) →
    s.filled c ∨ c ∈ s.wRx ∨ Has s fun p _ => ∃ q, (p = .sUnlock q ∨ p = .sNotify q) ∧ c ∈ q
  reg : ∀ c ∈ s.wRx, c < s.cells.length
  tak : ∀ (t : Nat) p v q, s.th[t]? = some (p, v) → (p = .sUnlock q ∨ p = .sNotify q) → ∀ c ∈ q, c < s.cells.length

theorem invW_step {s s' : St} (h : Step s s') (i : InvW s) : InvW s' := by
  obtain ⟨wait, reg, tak⟩ := i
  have inert : ∀ {t : Nat} {x y : T} {s' : St}, s.th[t]? = some x → s'.th = s.th.set t y → s'.wRx = s.wRx → s'.cells = s.cells →
      (∀ q, (x.1 = .sUnlock q ∨ x.1 = .sNotify q) → q = [] ∨ y.1 = .sUnlock q ∨ y.1 = .sNotify q) →
      (∀ c, (y.1 = .waits c ∨ y.1 = .rUnlock (some c)) → (x.1 = .waits c ∨ x.1 = .rUnlock (some c))) →
      (∀ q, (y.1 = .sUnlock q ∨ y.1 = .sNotify q) → (x.1 = .sUnlock q ∨ x.1 = .sNotify q)) → InvW s' := by
    intro t x y s' ht hth hw hc h1 h2 h3
    constructor
    · intro u p v c hu hp
      rw [hth] at hu
      have base : s.filled c ∨ c ∈ s.wRx ∨ Has s fun p _ => ∃ q, (p = .sUnlock q ∨ p = .sNotify q) ∧ c ∈ q := by
        rcases set_cases' hu with ⟨rfl, he⟩ | ⟨-, hu⟩
        · subst he; exact wait u x.1 x.2 c ht (h2 c hp)
        · exact wait u p v c hu hp
      rcases base with h | h | h
      · exact .inl (by unfold St.filled; rw [hc]; exact h)
      · exact .inr (.inl (by rw [hw]; exact h))
      · refine .inr (.inr (h.set ht hth ?_))
        rintro ⟨q, hq, hm⟩
        rcases h1 q hq with rfl | h
        · simp at hm
        · exact ⟨q, h, hm⟩
    · rw [hw, hc]; exact reg
    · intro u p v q hu hp
      rw [hth] at hu; rw [hc]
      rcases set_cases' hu with ⟨rfl, he⟩ | ⟨-, hu⟩
      · subst he; exact tak u x.1 x.2 q ht (h3 q hp)
      · exact tak u p v q hu hp
  have new : ∀ {y : T} {s' : St}, s'.th = s.th ++ [y] → s'.wRx = s.wRx → s'.cells = s.cells →
      (∀ c, ¬ (y.1 = .waits c ∨ y.1 = .rUnlock (some c))) → (∀ q, ¬ (y.1 = .sUnlock q ∨ y.1 = .sNotify q)) → InvW s' := by
    intro y s' hth hw hc h1 h2
    constructor
    · intro u p v c hu hp
      rw [hth] at hu
      rcases snoc_cases' hu with ⟨rfl, he⟩ | hu
      · subst he; exact absurd hp (h1 c)
      · rcases wait u p v c hu hp with h | h | h
        · exact .inl (by unfold St.filled; rw [hc]; exact h)
        · exact .inr (.inl (by rw [hw]; exact h))
        · exact .inr (.inr (h.snoc hth))
    · rw [hw, hc]; exact reg
    · intro u p v q hu hp
      rw [hth] at hu; rw [hc]
      rcases snoc_cases' hu with ⟨rfl, he⟩ | hu
      · subst he; exact absurd hp (h2 q)
      · exact tak u p v q hu hp
  cases h
  case cloneS => exact ⟨wait, reg, tak⟩
  case cloneR => exact ⟨wait, reg, tak⟩
  case dropS => exact new rfl rfl rfl (by simp) (by simp)
  case dropR => exact new rfl rfl rfl (by simp) (by simp)
  case recv => exact new rfl rfl rfl (by simp) (by simp)
  case up => exact new rfl rfl rfl (by simp) (by simp)
  case join => exact new rfl rfl rfl (by simp) (by simp)
  case serve c q hl hw hce =>
    have hlt := reg c (by simp [hw])
    constructor
    · intro u p v d hu hp
      by_cases e : c = d
      · subst e; left; left; simp [List.getElem?_set, hlt]
      · rcases wait u p v d hu hp with h | h | h
        · left; simp [St.filled, List.getElem?_set, e] at h ⊢; exact h
        · right; left; simp [hw, Ne.symm e] at h; exact h
        · exact .inr (.inr h)
    · intro d hd; simp; exact reg d (by simp [hw, hd])
    · intro u p v q hu hp d hd; simp; exact tak u p v q hu hp d hd
  case sTake t v ht =>
    have hl := (List.getElem?_eq_some_iff.1 ht).1
    have hz : (s.th.set t (.sUnlock s.wRx, v))[t]? = some (.sUnlock s.wRx, v) := by simp [List.getElem?_set, hl]
    constructor
    · intro u p w c hu hp
      simp only [St.go] at hu
      rcases set_cases' hu with ⟨rfl, he⟩ | ⟨-, hu⟩
      · simp at he; obtain ⟨rfl, -⟩ := he; simp at hp
      · rcases wait u p w c hu hp with h | h | h
        · exact .inl h
        · exact .inr (.inr ⟨t, _, _, hz, _, .inl rfl, h⟩)
        · refine .inr (.inr (h.set (y := (.sUnlock s.wRx, v)) ht rfl ?_))
          rintro ⟨q, hq, -⟩; simp at hq
    · intro c hc; simp [St.go] at hc
    · intro u p w q hu hp
      simp only [St.go] at hu
      rcases set_cases' hu with ⟨rfl, he⟩ | ⟨-, hu⟩
      · simp at he; obtain ⟨rfl, -⟩ := he; simp at hp; subst hp; exact reg
      · exact tak u p w q hu hp
  case sNotify t v c q ht hce =>
    have hlt := tak t _ v _ ht (.inr rfl) c (by simp)
    constructor
    · intro u p w d hu hp
      simp only [St.go] at hu
      rcases set_cases' hu with ⟨rfl, he⟩ | ⟨-, hu⟩
      · simp at he; obtain ⟨rfl, -⟩ := he; simp at hp
      · by_cases e : c = d
        · subst e; left; right; simp [St.go, List.getElem?_set, hlt]
        · rcases wait u p w d hu hp with h | h | h
          · left; simp [St.filled, St.go, List.getElem?_set, e] at h ⊢; exact h
          · exact .inr (.inl h)
          · refine .inr (.inr (h.set (y := (.sNotify q, v)) ht rfl ?_))
            rintro ⟨q', hq, hm⟩
            simp at hq; subst hq
            simp [Ne.symm e] at hm
            exact ⟨q, .inr rfl, hm⟩
    · intro d hd; simp [St.go]; exact reg d hd
    · intro u p w q' hu hp d hd
      simp only [St.go] at hu
      simp only [St.go, List.length_set]
      rcases set_cases' hu with ⟨rfl, he⟩ | ⟨-, hu⟩
      · simp at he; obtain ⟨rfl, -⟩ := he; simp at hp; subst hp
        exact tak u _ v _ ht (.inr rfl) d (by simp [hd])
      · exact tak u p w q' hu hp d hd
  case sNotifyFull t v c q ht hce =>
    have hlt := tak t _ v _ ht (.inr rfl) c (by simp)
    constructor
    · intro u p w d hu hp
      simp only [St.go] at hu
      rcases set_cases' hu with ⟨rfl, he⟩ | ⟨-, hu⟩
      · simp at he; obtain ⟨rfl, -⟩ := he; simp at hp
      · by_cases e : c = d
        · subst e; left
          obtain ⟨x, hx⟩ : ∃ x, s.cells[c]? = some x := ⟨_, List.getElem?_eq_getElem hlt⟩
          cases x with
          | empty => exact absurd hx hce
          | msg => exact .inl hx
          | shut => exact .inr hx
        · rcases wait u p w d hu hp with h | h | h
          · exact .inl h
          · exact .inr (.inl h)
          · refine .inr (.inr (h.set (y := (.sNotify q, v)) ht rfl ?_))
            rintro ⟨q', hq, hm⟩
            simp at hq; subst hq
            simp [Ne.symm e] at hm
            exact ⟨q, .inr rfl, hm⟩
    · intro d hd; exact reg d hd
    · intro u p w q' hu hp d hd
      simp only [St.go] at hu
      rcases set_cases' hu with ⟨rfl, he⟩ | ⟨-, hu⟩
      · simp at he; obtain ⟨rfl, -⟩ := he; simp at hp; subst hp
        exact tak u _ v _ ht (.inr rfl) d (by simp [hd])
      · exact tak u p w q' hu hp d hd
  case rReg t v ht =>
    constructor
    · intro u p w d hu hp
      simp only [St.go] at hu
      rcases set_cases' hu with ⟨rfl, he⟩ | ⟨-, hu⟩
      · simp at he; obtain ⟨rfl, -⟩ := he; simp at hp; subst hp
        right; left; simp [St.go]
      · rcases wait u p w d hu hp with h | h | h
        · left
          have hlt : d < s.cells.length := by rcases h with h | h <;> exact (List.getElem?_eq_some_iff.1 h).1
          simp only [St.filled, St.go]; rw [List.getElem?_append_left hlt]; exact h
        · right; left; simp [St.go, h]
        · refine .inr (.inr (h.set (y := (.rUnlock (some s.cells.length), v)) ht rfl ?_))
          rintro ⟨q', hq, hm⟩; simp at hq
    · intro d hd
      simp [St.go] at hd ⊢
      rcases hd with h | h
      · have := reg d h; omega
      · omega
    · intro u p w q' hu hp d hd
      simp only [St.go] at hu
      simp only [St.go, List.length_append, List.length_singleton]
      rcases set_cases' hu with ⟨rfl, he⟩ | ⟨-, hu⟩
      · simp at he; obtain ⟨rfl, -⟩ := he; simp at hp
      · have := tak u p w q' hu hp d hd; omega
  all_goals
    first
      | (rename_i ht; exact inert ht rfl rfl rfl (by simp) (by simp) (by simp))
      | (rename_i ht _; exact inert ht rfl rfl rfl (by simp) (by simp) (by simp))
      | (rename_i ht _ _; exact inert ht rfl rfl rfl (by simp) (by simp) (by simp))
      | (rename_i ht _ _ _; exact inert ht rfl rfl rfl (by simp) (by simp) (by simp))

theorem invW {s : St} (h : Steps init s) : InvW s := by
  induction h with
  | refl => exact ⟨by simp [init], by simp [init], by simp [init]⟩
  | snoc h1 h ih => exact invW_step h ih

/-- A thread that dropped the last mailbox and will notify a listener inserted at position `τ`. -/
def Notifier (τ : Nat) : Pc → View → Prop := fun p v => p = .mLock ∨ p = .mFence ∨ (p = .mCheck ∧ τ ≤ v.l) ∨ p = .mNotify

/-- Listener `l` has been, or is going to be, notified. -/
def Noted (s : St) (l : Nat) : Prop := ∃ τ b, s.lst[l]? = some (τ, b) ∧ (b = true ∨ Has s (Notifier τ))

/-- A thread in the middle of `on_receiver_dropped` for the last mailbox. -/
def Pc.closing : Pc → Bool
  | .mLock | .mFence | .mCheck | .mNotify | .mUnlock => true
  | _ => false

/-- A thread that has published its listener. -/
def Pc.listens : Pc → Option Nat
  | .jLoadR l | .jLoadS l | .joins l => some l
  | _ => none

structure InvJ (s : St) : Prop where
  pend : cur s.rc = 0 → Has s (fun p v => (p = .mLock ∨ p = .mFence) ∧ s.rc.length ≤ v.r + 1) ∨ s.rc.length ≤ s.fenceV.r + 1
  ins : ∀ (t l : Nat) v, s.th[t]? = some (.jFence l, v) → ∃ x, s.lst[l]? = some x ∧ x.1 ≤ v.l
  fen : ∀ (t l : Nat) p v, s.th[t]? = some (p, v) → p.listens = some l → ∃ x, s.lst[l]? = some x ∧ x.1 ≤ s.fenceV.l
  flag : ∀ (l τ : Nat), s.lst[l]? = some (τ, false) → ∀ (k : Nat) b, τ ≤ k → s.fl[k]? = some b → b = true
  jr : ∀ (t l : Nat) v, s.th[t]? = some (.jLoadR l, v) → cur s.rc = 0 → s.rc.length ≤ v.r + 1 ∨ Noted s l
  js : ∀ (t l : Nat) p v, s.th[t]? = some (p, v) → (p = .jLoadS l ∨ p = .joins l) → cur s.rc = 0 → Noted s l
  cl : ∀ (t : Nat) p v, s.th[t]? = some (p, v) → p.closing = true → cur s.rc = 0
  nt : ∀ (l τ : Nat), s.lst[l]? = some (τ, true) → cur s.rc = 0

theorem Noted.set {s s' : St} {l t : Nat} {x y : T} (h : Noted s l) (ht : s.th[t]? = some x) (hth : s'.th = s.th.set t y)
    (hl : s'.lst = s.lst) (hxy : ∀ z, s.lst[l]? = some z → Notifier z.1 x.1 x.2 → Notifier z.1 y.1 y.2 ∨ z.2 = true) : Noted s' l := by
  obtain ⟨τ, b, hb, h⟩ := h
  refine ⟨τ, b, by rw [hl]; exact hb, ?_⟩
  rcases h with h | h
  · exact .inl h
  · by_cases hb' : b = true
    · exact .inl hb'
    · right
      refine h.set ht hth (fun h => ?_)
      rcases hxy _ hb h with h | h
      · exact h
      · exact absurd h hb'

theorem invJ_step {s s' : St} (h : Step s s') (a : InvA s) (i : InvJ s) : InvJ s' := by
  obtain ⟨pend, ins, fen, flag, jr, js, cl, nt⟩ := i
  have inert : ∀ {t : Nat} {x y : T} {s' : St}, s.th[t]? = some x → s'.th = s.th.set t y → s'.rc = s.rc → s'.fenceV = s.fenceV →
      s'.fl = s.fl → s'.lst = s.lst → (x.1.closing = false ∨ x.1 = .mUnlock) → y.1.closing = false → y.1.listens = none →
      (∀ l, y.1 ≠ .jFence l) → InvJ s' := by
    intro t x y s' ht hth hrc hfv hfl hlst hx hy hy2 hy3
    have hn : ∀ l, Noted s l → Noted s' l := by
      intro l h
      refine h.set ht hth hlst (fun z _ h => ?_)
      exfalso
      rcases h with h | h | ⟨h, -⟩ | h <;> rw [h] at hx <;> simp [Pc.closing] at hx
    have back : ∀ (u : Nat) p v, s'.th[u]? = some (p, v) → (u = t ∧ (p, v) = y) ∨ s.th[u]? = some (p, v) := by
      intro u p v hu
      rw [hth] at hu
      rcases set_cases' hu with h | ⟨-, h⟩
      · exact .inl h
      · exact .inr h
    constructor
    · intro hc
      rw [hrc] at hc ⊢; rw [hfv]
      rcases pend hc with h | h
      · left
        refine h.set ht hth ?_
        rintro ⟨h | h, -⟩ <;> rw [h] at hx <;> simp [Pc.closing] at hx
      · exact .inr h
    · intro u l v hu
      rw [hlst]
      rcases back _ _ _ hu with ⟨rfl, he⟩ | hu
      · exact absurd (by rw [← he]) (hy3 l)
      · exact ins _ _ _ hu
    · intro u l p v hu hp
      rw [hlst, hfv]
      rcases back _ _ _ hu with ⟨rfl, he⟩ | hu
      · subst he; simp [hy2] at hp
      · exact fen _ _ _ _ hu hp
    · rw [hlst, hfl]; exact flag
    · intro u l v hu hc
      rw [hrc] at hc ⊢
      rcases back _ _ _ hu with ⟨rfl, he⟩ | hu
      · subst he; simp [Pc.listens] at hy2
      · rcases jr _ _ _ hu hc with h | h
        · exact .inl h
        · exact .inr (hn l h)
    · intro u l p v hu hp hc
      rw [hrc] at hc
      rcases back _ _ _ hu with ⟨rfl, he⟩ | hu
      · subst he; rcases hp with rfl | rfl <;> simp [Pc.listens] at hy2
      · exact hn l (js _ _ _ _ hu hp hc)
    · intro u p v hu hp
      rw [hrc]
      rcases back _ _ _ hu with ⟨rfl, he⟩ | hu
      · subst he; simp [hy] at hp
      · exact cl _ _ _ hu hp
    · rw [hlst, hrc]; exact nt
  have new : ∀ {y : T} {s' : St}, s'.th = s.th ++ [y] → s'.rc = s.rc → s'.fenceV = s.fenceV →
      s'.fl = s.fl → s'.lst = s.lst → y.1.closing = false → y.1.listens = none → (∀ l, y.1 ≠ .jFence l) → InvJ s' := by
    intro y s' hth hrc hfv hfl hlst hy hy2 hy3
    have hn : ∀ l, Noted s l → Noted s' l := by
      rintro l ⟨τ, b, hb, h⟩
      exact ⟨τ, b, by rw [hlst]; exact hb, h.imp id (fun h => h.snoc hth)⟩
    have back : ∀ (u : Nat) p v, s'.th[u]? = some (p, v) → (u = s.th.length ∧ (p, v) = y) ∨ s.th[u]? = some (p, v) := by
      intro u p v hu
      rw [hth] at hu
      exact snoc_cases' hu
    constructor
    · intro hc
      rw [hrc] at hc ⊢; rw [hfv]
      rcases pend hc with h | h
      · exact .inl (h.snoc hth)
      · exact .inr h
    · intro u l v hu
      rw [hlst]
      rcases back _ _ _ hu with ⟨rfl, he⟩ | hu
      · exact absurd (by rw [← he]) (hy3 l)
      · exact ins _ _ _ hu
    · intro u l p v hu hp
      rw [hlst, hfv]
      rcases back _ _ _ hu with ⟨rfl, he⟩ | hu
      · subst he; simp [hy2] at hp
      · exact fen _ _ _ _ hu hp
    · rw [hlst, hfl]; exact flag
    · intro u l v hu hc
      rw [hrc] at hc ⊢
      rcases back _ _ _ hu with ⟨rfl, he⟩ | hu
      · subst he; simp [Pc.listens] at hy2
      · rcases jr _ _ _ hu hc with h | h
        · exact .inl h
        · exact .inr (hn l h)
    · intro u l p v hu hp hc
      rw [hrc] at hc
      rcases back _ _ _ hu with ⟨rfl, he⟩ | hu
      · subst he; rcases hp with rfl | rfl <;> simp [Pc.listens] at hy2
      · exact hn l (js _ _ _ _ hu hp hc)
    · intro u p v hu hp
      rw [hrc]
      rcases back _ _ _ hu with ⟨rfl, he⟩ | hu
      · subst he; simp [hy] at hp
      · exact cl _ _ _ hu hp
    · rw [hlst, hrc]; exact nt
  cases h
  case cloneS => exact ⟨pend, ins, fen, flag, jr, js, cl, nt⟩
  case serve => exact ⟨pend, ins, fen, flag, jr, js, cl, nt⟩
  case dropS => exact new rfl rfl rfl rfl rfl rfl rfl (by simp)
  case dropR => exact new rfl rfl rfl rfl rfl rfl rfl (by simp)
  case recv => exact new rfl rfl rfl rfl rfl rfl rfl (by simp)
  case up => exact new rfl rfl rfl rfl rfl rfl rfl (by simp)
  case join => exact new rfl rfl rfl rfl rfl rfl rfl (by simp)
  case cloneR hp =>
    have hpos : cur s.rc ≠ 0 := by have := a.rcur; omega
    have hz : ¬ cur (s.rc ++ [cur s.rc + 1]) = 0 := by simp [cur_snoc]
    exact ⟨fun h => absurd h hz, ins, fen, flag, fun _ _ _ _ h => absurd h hz, fun _ _ _ _ _ _ h => absurd h hz,
      fun t p v ht h => absurd (cl t p v ht h) hpos, fun l τ h => absurd (nt l τ h) hpos⟩
  case mSubMore t v ht hn =>
    have h1 := le_sumBy wR ht; have h2 := a.rcur; simp [wR] at h1
    have hpos : cur s.rc ≠ 0 := by omega
    have hz : ¬ cur (s.rc ++ [cur s.rc - 1]) = 0 := by simp [cur_snoc]; omega
    have back : ∀ {u : Nat} {p v'}, (s.th.set t (.done, { v with r := s.rc.length }))[u]? = some (p, v') →
        (p = .done) ∨ s.th[u]? = some (p, v') := by
      intro u p v' hu
      rcases set_cases' hu with ⟨-, h⟩ | ⟨-, h⟩
      · simp at h; exact .inl h.1
      · exact .inr h
    refine ⟨fun h => absurd h hz, fun u l w hu => ?_, fun u l p w hu hp => ?_, flag, fun _ _ _ _ h => absurd h hz,
      fun _ _ _ _ _ _ h => absurd h hz, fun u p w hu hp => ?_, fun l τ h => absurd (nt l τ h) hpos⟩
    · rcases back hu with h | hu
      · simp at h
      · exact ins _ _ _ hu
    · rcases back hu with rfl | hu
      · simp [Pc.listens] at hp
      · exact fen _ _ _ _ hu hp
    · rcases back hu with rfl | hu
      · simp [Pc.closing] at hp
      · exact absurd (cl _ _ _ hu hp) hpos
  case mSubLast t v ht hn =>
    have hl := (List.getElem?_eq_some_iff.1 ht).1
    have hpos : cur s.rc ≠ 0 := by omega
    have hz : cur (s.rc ++ [cur s.rc - 1]) = 0 := by simp [cur_snoc]; omega
    have hat : (s.th.set t (.mLock, { v with r := s.rc.length }))[t]? = some (.mLock, { v with r := s.rc.length }) := by simp [hl]
    have back : ∀ {u : Nat} {p v'}, (s.th.set t (.mLock, { v with r := s.rc.length }))[u]? = some (p, v') →
        (p = .mLock) ∨ s.th[u]? = some (p, v') := by
      intro u p v' hu
      rcases set_cases' hu with ⟨-, h⟩ | ⟨-, h⟩
      · simp at h; exact .inl h.1
      · exact .inr h
    have noted : ∀ {l : Nat} {x}, s.lst[l]? = some x →
        Noted ({ s with rc := s.rc ++ [cur s.rc - 1] }.go t .mLock { v with r := s.rc.length }) l :=
      fun {l x} hx => ⟨x.1, x.2, hx, .inr ⟨t, _, _, hat, .inl rfl⟩⟩
    refine ⟨fun _ => .inl ⟨t, _, _, hat, .inl rfl, by simp [St.go]⟩, fun u l w hu => ?_, fun u l p w hu hp => ?_, flag,
      fun u l w hu _ => ?_, fun u l p w hu hp _ => ?_, fun _ _ _ _ _ => hz, fun _ _ _ => hz⟩
    · rcases back hu with h | hu
      · simp at h
      · exact ins _ _ _ hu
    · rcases back hu with rfl | hu
      · simp [Pc.listens] at hp
      · exact fen _ _ _ _ hu hp
    · rcases back hu with h | hu
      · simp at h
      · obtain ⟨x, hx, -⟩ := fen _ _ _ _ hu rfl
        exact .inr (noted hx)
    · rcases back hu with rfl | hu
      · simp at hp
      · obtain ⟨x, hx, -⟩ := fen u l p w hu (by rcases hp with rfl | rfl <;> rfl)
        exact noted hx
  case mLock t v ht hlk =>
    have hc0 := cl _ _ _ ht rfl
    have hn : ∀ l, Noted s l → Noted ({ s with lock := some t }.go t .mFence (v.join s.lockV)) l := fun l h =>
      h.set ht rfl rfl (fun z _ _ => .inl (.inr (.inl rfl)))
    have back : ∀ {u : Nat} {p v'}, (s.th.set t (.mFence, v.join s.lockV))[u]? = some (p, v') → (p = .mFence) ∨ s.th[u]? = some (p, v') := by
      intro u p v' hu
      rcases set_cases' hu with ⟨-, h⟩ | ⟨-, h⟩
      · simp at h; exact .inl h.1
      · exact .inr h
    refine ⟨fun hc => ?_, fun u l w hu => ?_, fun u l p w hu hp => ?_, flag, fun u l w hu hc => ?_, fun u l p w hu hp hc => ?_,
      fun _ _ _ _ _ => hc0, nt⟩
    · rcases pend hc with h | h
      · left
        refine h.set (y := (.mFence, v.join s.lockV)) ht rfl ?_
        rintro ⟨-, h⟩
        exact ⟨.inr rfl, by simp only [View.join, St.go] at h ⊢; omega⟩
      · exact .inr h
    · rcases back hu with h | hu
      · simp at h
      · exact ins _ _ _ hu
    · rcases back hu with rfl | hu
      · simp [Pc.listens] at hp
      · exact fen _ _ _ _ hu hp
    · rcases back hu with h | hu
      · simp at h
      · exact (jr _ _ _ hu hc).imp id (hn l)
    · rcases back hu with rfl | hu
      · simp at hp
      · exact hn l (js _ _ _ _ hu hp hc)
  case mFence t v ht =>
    have hc0 := cl _ _ _ ht rfl
    have hn : ∀ l, (∃ x, s.lst[l]? = some x ∧ x.1 ≤ s.fenceV.l) → Noted s l →
        Noted ({ s with fenceV := v.join s.fenceV }.go t .mCheck (v.join s.fenceV)) l := fun l hx h =>
      h.set ht rfl rfl (fun z hz _ => by
        obtain ⟨x, hx, hle⟩ := hx
        rw [hz] at hx; simp at hx; subst hx
        exact .inl (.inr (.inr (.inl ⟨rfl, by simp only [View.join]; omega⟩))))
    have back : ∀ {u : Nat} {p v'}, (s.th.set t (.mCheck, v.join s.fenceV))[u]? = some (p, v') → (p = .mCheck) ∨ s.th[u]? = some (p, v') := by
      intro u p v' hu
      rcases set_cases' hu with ⟨-, h⟩ | ⟨-, h⟩
      · simp at h; exact .inl h.1
      · exact .inr h
    refine ⟨fun hc => ?_, fun u l w hu => ?_, fun u l p w hu hp => ?_, flag, fun u l w hu hc => ?_, fun u l p w hu hp hc => ?_,
      fun _ _ _ _ _ => hc0, nt⟩
    · rcases pend hc with ⟨u, p, w, hu, h1, h2⟩ | h
      · by_cases e : t = u
        · subst e
          rw [ht] at hu; simp at hu; obtain ⟨rfl, rfl⟩ := hu
          right; simp only [St.go, View.join] at h2 ⊢; omega
        · left; exact ⟨u, p, w, by simp [St.go, List.getElem?_set, e, hu], h1, h2⟩
      · right; simp only [St.go, View.join] at h ⊢; omega
    · rcases back hu with h | hu
      · simp at h
      · exact ins _ _ _ hu
    · rcases back hu with rfl | hu
      · simp [Pc.listens] at hp
      · obtain ⟨x, h1, h2⟩ := fen _ _ _ _ hu hp
        exact ⟨x, h1, by simp only [St.go, View.join]; omega⟩
    · rcases back hu with h | hu
      · simp at h
      · exact (jr _ _ _ hu hc).imp id (hn l (fen _ _ _ _ hu rfl))
    · rcases back hu with rfl | hu
      · simp at hp
      · exact hn l (fen u l p w hu (by rcases hp with rfl | rfl <;> rfl)) (js _ _ _ _ hu hp hc)
  case mCheckNone t k v ht hk hf =>
    have hc0 := cl _ _ _ ht rfl
    have hn : ∀ l, Noted s l → Noted (s.go t .mUnlock { v with l := k }) l := fun l h =>
      h.set ht rfl rfl (fun z hz h => by
        right
        rcases h with h | h | ⟨-, h⟩ | h
        · simp at h
        · simp at h
        · rcases z with ⟨τ, b⟩
          cases b with
          | true => rfl
          | false => simpa using flag l τ hz k false (by simp at h; omega) hf
        · simp at h)
    have back : ∀ {u : Nat} {p v'}, (s.th.set t (.mUnlock, { v with l := k }))[u]? = some (p, v') → (p = .mUnlock) ∨ s.th[u]? = some (p, v') := by
      intro u p v' hu
      rcases set_cases' hu with ⟨-, h⟩ | ⟨-, h⟩
      · simp at h; exact .inl h.1
      · exact .inr h
    refine ⟨fun hc => ?_, fun u l w hu => ?_, fun u l p w hu hp => ?_, flag, fun u l w hu hc => ?_, fun u l p w hu hp hc => ?_,
      fun _ _ _ _ _ => hc0, nt⟩
    · rcases pend hc with h | h
      · left
        refine h.set (y := (.mUnlock, { v with l := k })) ht rfl ?_
        rintro ⟨h | h, -⟩ <;> simp at h
      · exact .inr h
    · rcases back hu with h | hu
      · simp at h
      · exact ins _ _ _ hu
    · rcases back hu with rfl | hu
      · simp [Pc.listens] at hp
      · exact fen _ _ _ _ hu hp
    · rcases back hu with h | hu
      · simp at h
      · exact (jr _ _ _ hu hc).imp id (hn l)
    · rcases back hu with rfl | hu
      · simp at hp
      · exact hn l (js _ _ _ _ hu hp hc)
  case mCheckSome t k v ht hk hf =>
    have hc0 := cl _ _ _ ht rfl
    have hn : ∀ l, Noted s l → Noted (s.go t .mNotify { v with l := k }) l := fun l h =>
      h.set ht rfl rfl (fun z hz h => .inl (.inr (.inr (.inr rfl))))
    have back : ∀ {u : Nat} {p v'}, (s.th.set t (.mNotify, { v with l := k }))[u]? = some (p, v') → (p = .mNotify) ∨ s.th[u]? = some (p, v') := by
      intro u p v' hu
      rcases set_cases' hu with ⟨-, h⟩ | ⟨-, h⟩
      · simp at h; exact .inl h.1
      · exact .inr h
    refine ⟨fun hc => ?_, fun u l w hu => ?_, fun u l p w hu hp => ?_, flag, fun u l w hu hc => ?_, fun u l p w hu hp hc => ?_,
      fun _ _ _ _ _ => hc0, nt⟩
    · rcases pend hc with h | h
      · left
        refine h.set (y := (.mNotify, { v with l := k })) ht rfl ?_
        rintro ⟨h | h, -⟩ <;> simp at h
      · exact .inr h
    · rcases back hu with h | hu
      · simp at h
      · exact ins _ _ _ hu
    · rcases back hu with rfl | hu
      · simp [Pc.listens] at hp
      · exact fen _ _ _ _ hu hp
    · rcases back hu with h | hu
      · simp at h
      · exact (jr _ _ _ hu hc).imp id (hn l)
    · rcases back hu with rfl | hu
      · simp at hp
      · exact hn l (js _ _ _ _ hu hp hc)
  case mNotify t v ht =>
    have hc0 := cl _ _ _ ht rfl
    have hm : ∀ {l : Nat} {x}, s.lst[l]? = some x → (s.lst.map fun (x : Nat × Bool) => (x.1, true))[l]? = some (x.1, true) := by
      intro l x hx; simp [hx]
    have hn : ∀ {l : Nat} {x}, s.lst[l]? = some x →
        Noted ({ s with lst := s.lst.map fun (x : Nat × Bool) => (x.1, true), fl := s.fl ++ [false] }.go t .mUnlock { v with l := s.fl.length }) l :=
      fun hx => ⟨_, true, hm hx, .inl rfl⟩
    have back : ∀ {u : Nat} {p v'}, (s.th.set t (.mUnlock, { v with l := s.fl.length }))[u]? = some (p, v') → (p = .mUnlock) ∨ s.th[u]? = some (p, v') := by
      intro u p v' hu
      rcases set_cases' hu with ⟨-, h⟩ | ⟨-, h⟩
      · simp at h; exact .inl h.1
      · exact .inr h
    refine ⟨fun hc => ?_, fun u l w hu => ?_, fun u l p w hu hp => ?_, fun l τ hl => ?_, fun u l w hu hc => ?_, fun u l p w hu hp hc => ?_,
      fun _ _ _ _ _ => hc0, fun _ _ _ => hc0⟩
    · rcases pend hc with h | h
      · left
        refine h.set (y := (.mUnlock, { v with l := s.fl.length })) ht rfl ?_
        rintro ⟨h | h, -⟩ <;> simp at h
      · exact .inr h
    · rcases back hu with h | hu
      · simp at h
      · obtain ⟨x, h1, h2⟩ := ins _ _ _ hu; exact ⟨_, hm h1, h2⟩
    · rcases back hu with rfl | hu
      · simp [Pc.listens] at hp
      · obtain ⟨x, h1, h2⟩ := fen _ _ _ _ hu hp; exact ⟨_, hm h1, h2⟩
    · simp [St.go] at hl
    · rcases back hu with h | hu
      · simp at h
      · obtain ⟨x, h1, h2⟩ := fen _ _ _ _ hu rfl; exact .inr (hn h1)
    · rcases back hu with rfl | hu
      · simp at hp
      · obtain ⟨x, h1, h2⟩ := fen u l p w hu (by rcases hp with rfl | rfl <;> rfl); exact hn h1
  case jInsert t v ht =>
    have hl0 := (List.getElem?_eq_some_iff.1 ht).1
    have hm : ∀ {l : Nat} {x}, s.lst[l]? = some x → (s.lst ++ [(s.fl.length, false)])[l]? = some x := by
      intro l x hx
      rw [List.getElem?_append_left (List.getElem?_eq_some_iff.1 hx).1, hx]
    have hn : ∀ l, Noted s l →
        Noted ({ s with lst := s.lst ++ [(s.fl.length, false)], fl := s.fl ++ [true] }.go t (.jFence s.lst.length) { v with l := s.fl.length }) l := by
      rintro l ⟨τ, b, hb, h⟩
      refine ⟨τ, b, hm hb, h.imp id (fun h => h.set (y := (.jFence s.lst.length, { v with l := s.fl.length })) ht rfl ?_)⟩
      rintro (h | h | ⟨h, -⟩ | h) <;> simp at h
    have back : ∀ {u : Nat} {p v'}, (s.th.set t (.jFence s.lst.length, { v with l := s.fl.length }))[u]? = some (p, v') →
        (p = .jFence s.lst.length ∧ v' = { v with l := s.fl.length }) ∨ s.th[u]? = some (p, v') := by
      intro u p v' hu
      rcases set_cases' hu with ⟨-, h⟩ | ⟨-, h⟩
      · simp at h; exact .inl h
      · exact .inr h
    refine ⟨fun hc => ?_, fun u l w hu => ?_, fun u l p w hu hp => ?_, fun l τ hl k b hk hb => ?_, fun u l w hu hc => ?_,
      fun u l p w hu hp hc => ?_, fun u p w hu hp => ?_, fun l τ hl => ?_⟩
    · rcases pend hc with h | h
      · left
        refine h.set (y := (.jFence s.lst.length, { v with l := s.fl.length })) ht rfl ?_
        rintro ⟨h | h, -⟩ <;> simp at h
      · exact .inr h
    · rcases back hu with ⟨h, rfl⟩ | hu
      · simp at h; subst h
        exact ⟨(s.fl.length, false), by simp [St.go], by simp⟩
      · obtain ⟨x, h1, h2⟩ := ins _ _ _ hu; exact ⟨_, hm h1, h2⟩
    · rcases back hu with ⟨rfl, -⟩ | hu
      · simp [Pc.listens] at hp
      · obtain ⟨x, h1, h2⟩ := fen _ _ _ _ hu hp; exact ⟨_, hm h1, h2⟩
    · simp only [St.go] at hl hb
      rcases snoc_cases' hb with ⟨-, h⟩ | hb'
      · exact h
      · rcases snoc_cases' hl with ⟨-, h⟩ | hl
        · simp at h; subst h
          have := (List.getElem?_eq_some_iff.1 hb').1; omega
        · exact flag l τ hl k b hk hb'
    · rcases back hu with ⟨h, -⟩ | hu
      · simp at h
      · exact (jr _ _ _ hu hc).imp id (hn l)
    · rcases back hu with ⟨rfl, -⟩ | hu
      · simp at hp
      · exact hn l (js _ _ _ _ hu hp hc)
    · rcases back hu with ⟨rfl, -⟩ | hu
      · simp [Pc.closing] at hp
      · exact cl _ _ _ hu hp
    · simp only [St.go] at hl
      rcases snoc_cases' hl with ⟨-, h⟩ | hl
      · simp at h
      · exact nt l τ hl
  case jFence t l0 v ht =>
    have hn : ∀ l, Noted s l → Noted ({ s with fenceV := v.join s.fenceV }.go t (.jLoadR l0) (v.join s.fenceV)) l := by
      intro l h
      refine h.set ht rfl rfl (fun z hz h => ?_)
      rcases h with h | h | ⟨h, -⟩ | h <;> simp at h
    have back : ∀ {u : Nat} {p v'}, (s.th.set t (.jLoadR l0, v.join s.fenceV))[u]? = some (p, v') →
        (p = .jLoadR l0 ∧ v' = v.join s.fenceV) ∨ s.th[u]? = some (p, v') := by
      intro u p v' hu
      rcases set_cases' hu with ⟨-, h⟩ | ⟨-, h⟩
      · simp at h; exact .inl h
      · exact .inr h
    obtain ⟨x0, hx0, hle0⟩ := ins _ _ _ ht
    refine ⟨fun hc => ?_, fun u l w hu => ?_, fun u l p w hu hp => ?_, flag, fun u l w hu hc => ?_,
      fun u l p w hu hp hc => ?_, fun u p w hu hp => ?_, nt⟩
    · rcases pend hc with h | h
      · left
        refine h.set (y := (.jLoadR l0, v.join s.fenceV)) ht rfl ?_
        rintro ⟨h | h, -⟩ <;> simp at h
      · right; simp only [St.go, View.join] at h ⊢; omega
    · rcases back hu with ⟨h, -⟩ | hu
      · simp at h
      · exact ins _ _ _ hu
    · rcases back hu with ⟨rfl, rfl⟩ | hu
      · simp [Pc.listens] at hp; subst hp
        exact ⟨x0, hx0, by simp only [St.go, View.join]; omega⟩
      · obtain ⟨x, h1, h2⟩ := fen _ _ _ _ hu hp
        exact ⟨x, h1, by simp only [St.go, View.join]; omega⟩
    · rcases back hu with ⟨h, rfl⟩ | hu
      · simp at h; subst h
        rcases pend hc with h | h
        · right
          refine hn _ ⟨x0.1, x0.2, hx0, .inr (h.mono fun p v h => ?_)⟩
          rcases h.1 with h | h
          · exact .inl h
          · exact .inr (.inl h)
        · left; simp only [St.go, View.join] at h ⊢; omega
      · exact (jr _ _ _ hu hc).imp id (hn l)
    · rcases back hu with ⟨rfl, -⟩ | hu
      · simp at hp
      · exact hn l (js _ _ _ _ hu hp hc)
    · rcases back hu with ⟨rfl, -⟩ | hu
      · simp [Pc.closing] at hp
      · exact cl _ _ _ hu hp
  case jLoadRMore t l0 k n v ht hk hr hn0 =>
    have hn : ∀ l, Noted s l → Noted (s.go t (.jLoadS l0) { v with r := k }) l := by
      intro l h
      refine h.set ht rfl rfl (fun z hz h => ?_)
      rcases h with h | h | ⟨h, -⟩ | h <;> simp at h
    have back : ∀ {u : Nat} {p v'}, (s.th.set t (.jLoadS l0, { v with r := k }))[u]? = some (p, v') →
        (p = .jLoadS l0) ∨ s.th[u]? = some (p, v') := by
      intro u p v' hu
      rcases set_cases' hu with ⟨-, h⟩ | ⟨-, h⟩
      · simp at h; exact .inl h.1
      · exact .inr h
    refine ⟨fun hc => ?_, fun u l w hu => ?_, fun u l p w hu hp => ?_, flag, fun u l w hu hc => ?_,
      fun u l p w hu hp hc => ?_, fun u p w hu hp => ?_, nt⟩
    · rcases pend hc with h | h
      · left
        refine h.set (y := (.jLoadS l0, { v with r := k })) ht rfl ?_
        rintro ⟨h | h, -⟩ <;> simp at h
      · exact .inr h
    · rcases back hu with h | hu
      · simp at h
      · exact ins _ _ _ hu
    · rcases back hu with rfl | hu
      · exact fen _ _ _ _ ht hp
      · exact fen _ _ _ _ hu hp
    · rcases back hu with h | hu
      · simp at h
      · exact (jr _ _ _ hu hc).imp id (hn l)
    · rcases back hu with rfl | hu
      · simp at hp; subst hp
        rcases jr _ _ _ ht hc with h | h
        · exfalso
          have h3 := (List.getElem?_eq_some_iff.1 hr).1
          have h4 := cur_eq a.rne
          have : s.rc.length - 1 = k := by omega
          rw [this, hr] at h4; simp at h4; simp only [St.go] at hc; omega
        · exact hn _ h
      · exact hn l (js _ _ _ _ hu hp hc)
    · rcases back hu with rfl | hu
      · simp [Pc.closing] at hp
      · exact cl _ _ _ hu hp
  case jLoadSMore t l0 k n v ht hk hr hn0 =>
    have hn : ∀ l, Noted s l → Noted (s.go t (.joins l0) { v with s := k }) l := by
      intro l h
      refine h.set ht rfl rfl (fun z hz h => ?_)
      rcases h with h | h | ⟨h, -⟩ | h <;> simp at h
    have back : ∀ {u : Nat} {p v'}, (s.th.set t (.joins l0, { v with s := k }))[u]? = some (p, v') →
        (p = .joins l0) ∨ s.th[u]? = some (p, v') := by
      intro u p v' hu
      rcases set_cases' hu with ⟨-, h⟩ | ⟨-, h⟩
      · simp at h; exact .inl h.1
      · exact .inr h
    refine ⟨fun hc => ?_, fun u l w hu => ?_, fun u l p w hu hp => ?_, flag, fun u l w hu hc => ?_,
      fun u l p w hu hp hc => ?_, fun u p w hu hp => ?_, nt⟩
    · rcases pend hc with h | h
      · left
        refine h.set (y := (.joins l0, { v with s := k })) ht rfl ?_
        rintro ⟨h | h, -⟩ <;> simp at h
      · exact .inr h
    · rcases back hu with h | hu
      · simp at h
      · exact ins _ _ _ hu
    · rcases back hu with rfl | hu
      · exact fen _ _ _ _ ht hp
      · exact fen _ _ _ _ hu hp
    · rcases back hu with h | hu
      · simp at h
      · exact (jr _ _ _ hu hc).imp id (hn l)
    · rcases back hu with rfl | hu
      · simp at hp; subst hp
        exact hn _ (js _ _ _ _ ht (.inl rfl) hc)
      · exact hn l (js _ _ _ _ hu hp hc)
    · rcases back hu with rfl | hu
      · simp [Pc.closing] at hp
      · exact cl _ _ _ hu hp
  all_goals
    first
      | (rename_i ht; exact inert ht rfl rfl rfl rfl rfl (by simp [Pc.closing]) rfl rfl (by simp))
      | (rename_i ht _; exact inert ht rfl rfl rfl rfl rfl (by simp [Pc.closing]) rfl rfl (by simp))
      | (rename_i ht _ _; exact inert ht rfl rfl rfl rfl rfl (by simp [Pc.closing]) rfl rfl (by simp))
      | (rename_i ht _ _ _; exact inert ht rfl rfl rfl rfl rfl (by simp [Pc.closing]) rfl rfl (by simp))

theorem invJ {s : St} (h : Steps init s) : InvJ s := by
  induction h with
  | refl => exact ⟨by simp [init, cur], by simp [init], by simp [init], by simp [init], by simp [init], by simp [init], by simp [init], by simp [init]⟩
  | snoc h1 h ih => exact invJ_step h (invA h1) ih

/-! ## Theorems -/

theorem wS_final {x : T} (h : x.1.final = true) : wS x = 0 := by
  obtain ⟨p, v⟩ := x; cases p <;> simp [Pc.final, wS] at *

theorem wR_final {x : T} (h : x.1.final = true) : wR x = 0 := by
  obtain ⟨p, v⟩ := x; cases p <;> simp [Pc.final, wR] at *

theorem sumBy_zero {α : Type} {w : α → Nat} {l : List α} (h : ∀ x ∈ l, w x = 0) : sumBy w l = 0 := by
  induction l with
  | nil => rfl
  | cons x l ih => simp [sumBy, h x (by simp), ih fun y hy => h y (by simp [hy])]

theorem not_has {s : St} (hq : s.quiet) {P : Pc → View → Prop} (h : Has s P) (hP : ∀ p v, P p v → p.final = false) : False := by
  obtain ⟨t, p, v, ht, hp⟩ := h
  have h1 := hq _ (List.mem_of_getElem? ht)
  have h2 := hP p v hp
  simp [h2] at h1

/-- **C44 (no receive is left behind).** Under weak memory: once the last strong address is gone and all calls have returned, no receive is
left waiting: the cell of each that returned `Pending` has been filled, with a message or with the shutdown notice. -/
theorem C44_no_receive_left_waiting {s : St} (h : Steps init s) (hq : s.quiet) (h0 : s.strong = 0)
    {t c : Nat} {v : View} (ht : s.th[t]? = some (.waits c, v)) : s.filled c := by
  have a := invA h
  have hc : cur s.sc = 0 := by rw [a.scur, h0, sumBy_zero (fun x hx => wS_final (hq x hx))]
  have hw : s.wRx = [] := by
    rcases (invS h).pend hc with h | h
    · exact (not_has hq h (by rintro p v ⟨h | h, -⟩ <;> subst h <;> rfl)).elim
    · exact h.1
  rcases (invW h).wait t _ v c ht (.inl rfl) with h | h | h
  · exact h
  · simp [hw] at h
  · exact (not_has hq h (by rintro p v ⟨q, h | h, -⟩ <;> subst h <;> rfl)).elim

/-- A counter that has reached zero stays there. -/
theorem dead_step {s s' : St} (h : Step s s') (a : InvA s) (hc : cur s.sc = 0) : s'.sc = s.sc ∧ s'.strong = 0 := by
  have h1 := a.scur
  have h2 : s.strong = 0 := by omega
  cases h
  case cloneS h => omega
  case dropS h => omega
  case sSubLast h => omega
  case sSubMore t v ht _ =>
    have := le_sumBy wS ht
    have e : wS (Pc.sSub, v) = 1 := rfl
    omega
  case uCasOk t n v ht hn =>
    exact absurd (hn ▸ hc) (a.cas t n v ht)
  all_goals exact ⟨rfl, h2⟩

theorem dead_steps {s s' : St} (h : Steps init s) (h' : Steps s s') (hc : cur s.sc = 0) : s'.sc = s.sc ∧ s'.strong = 0 ∧ Steps init s' := by
  induction h' with
  | refl => exact ⟨rfl, by have := (invA h).scur; omega, h⟩
  | snoc h1 hs ih =>
    obtain ⟨e, -, hi⟩ := ih
    have hd := dead_step hs (invA hi) (by rw [e]; exact hc)
    exact ⟨hd.1.trans e, hd.2, .snoc hi hs⟩

theorem read_zero {s : St} (h : Steps init s) {k : Nat} (hk : s.sc[k]? = some 0) : cur s.sc = 0 := by
  have a := invA h
  have := a.szero k hk
  have h4 := cur_eq a.sne
  rw [← this] at h4; simp [hk] at h4; exact h4.symm

theorem read_zero_r {s : St} (h : Steps init s) {k : Nat} (hk : s.rc[k]? = some 0) : cur s.rc = 0 := by
  have a := invA h
  have := a.rzero k hk
  have h4 := cur_eq a.rne
  rw [← this] at h4; simp [hk] at h4; exact h4.symm

/-- Threads that know of the disconnection. -/
structure InvZ (s : St) : Prop where
  no : ∀ (t : Nat) p v, s.th[t]? = some (p, v) → (p = .upNo ∨ p = .shut ∨ p = .rUnlock none) → cur s.sc = 0
  jn : ∀ (t : Nat) v, s.th[t]? = some (.joinNone, v) → cur s.sc = 0 ∨ cur s.rc = 0

theorem dead_step_r {s s' : St} (h : Step s s') (a : InvA s) (hc : cur s.rc = 0) : s'.rc = s.rc ∧ s'.boxes = 0 := by
  have h1 := a.rcur
  have h2 : s.boxes = 0 := by omega
  cases h
  case cloneR h => omega
  case dropR h => omega
  case mSubLast h => omega
  case mSubMore t v ht _ =>
    have := le_sumBy wR ht
    have e : wR (Pc.mSub, v) = 1 := rfl
    omega
  all_goals exact ⟨rfl, h2⟩

theorem th_step {s s' : St} (h : Step s s') {u : Nat} {p : Pc} {v : View} (hu : s'.th[u]? = some (p, v)) :
    s.th[u]? = some (p, v) ∨
    (p = .upNo → ∃ k : Nat, s.sc[k]? = some 0) ∧ (p = .shut → ∃ v', s.th[u]? = some (.rUnlock none, v')) ∧
    (p = .rUnlock none → ∃ k : Nat, s.sc[k]? = some 0) ∧
    (p = .joinNone → (∃ k : Nat, s.sc[k]? = some 0) ∨ ∃ k : Nat, s.rc[k]? = some 0) := by
  have new : ∀ {q : Pc} {w : View}, (s.th ++ [(q, w)])[u]? = some (p, v) → (q ≠ .upNo ∧ q ≠ .shut ∧ q ≠ .rUnlock none ∧ q ≠ .joinNone) →
      s.th[u]? = some (p, v) ∨
      (p = .upNo → ∃ k : Nat, s.sc[k]? = some 0) ∧ (p = .shut → ∃ v', s.th[u]? = some (.rUnlock none, v')) ∧
      (p = .rUnlock none → ∃ k : Nat, s.sc[k]? = some 0) ∧
      (p = .joinNone → (∃ k : Nat, s.sc[k]? = some 0) ∨ ∃ k : Nat, s.rc[k]? = some 0) := by
    intro q w hu hq
    rcases snoc_cases' hu with ⟨-, h⟩ | h
    · simp at h; obtain ⟨rfl, rfl⟩ := h
      exact .inr ⟨fun h => absurd h hq.1, fun h => absurd h hq.2.1, fun h => absurd h hq.2.2.1, fun h => absurd h hq.2.2.2⟩
    · exact .inl h
  cases h
  case dropS | dropR | recv | up | join => exact new hu (by simp)
  case cloneS | cloneR | serve => exact .inl hu
  all_goals
    rcases set_cases' hu with ⟨e, h⟩ | ⟨-, h⟩
    · simp at h; obtain ⟨rfl, rfl⟩ := h
      right
      subst e
      simp
      try grind
    · exact .inl h

theorem invZ {s : St} (h : Steps init s) : InvZ s := by
  induction h with
  | refl => exact ⟨by simp [init], by simp [init]⟩
  | @snoc s s' h1 hs ih =>
    have a := invA h1
    have up : cur s.sc = 0 → cur s'.sc = 0 := fun h => by rw [(dead_step hs a h).1]; exact h
    have upr : cur s.rc = 0 → cur s'.rc = 0 := fun h => by rw [(dead_step_r hs a h).1]; exact h
    refine ⟨fun t p v ht hp => ?_, fun t v ht => ?_⟩
    · rcases th_step hs ht with ht | ⟨h2, h3, h4, -⟩
      · exact up (ih.no t p v ht hp)
      · rcases hp with rfl | rfl | rfl
        · obtain ⟨k, hk⟩ := h2 rfl; exact up (read_zero h1 hk)
        · obtain ⟨w, hw⟩ := h3 rfl; exact up (ih.no t _ w hw (by simp))
        · obtain ⟨k, hk⟩ := h4 rfl; exact up (read_zero h1 hk)
    · rcases th_step hs ht with ht | ⟨-, -, -, h2⟩
      · exact (ih.jn t v ht).imp up upr
      · rcases h2 rfl with ⟨k, hk⟩ | ⟨k, hk⟩
        · exact .inl (up (read_zero h1 hk))
        · exact .inr (upr (read_zero_r h1 hk))

/-- **C44 (refusals are final).** If some `try_upgrade` returned `None`, or some receive yielded the shutdown notice, then no strong
address exists, and none ever will. -/
theorem C44_refusal_is_final {s s' : St} (h : Steps init s) {t : Nat} {p : Pc} {v : View} (ht : s.th[t]? = some (p, v))
    (hp : p = .upNo ∨ p = .shut) (h' : Steps s s') : s'.strong = 0 :=
  (dead_steps h h' ((invZ h).no t p v ht (hp.imp id .inl))).2.1

/-- **C44 (no resurrection).** If no strong address exists and no drop of one is still at its decrement, no strong address will ever exist
again; in particular no `try_upgrade` succeeds any more, however stale a count it reads. -/
theorem C44_no_resurrection {s s' : St} (h : Steps init s) (h0 : s.strong = 0) (hd : ∀ v, (Pc.sSub, v) ∉ s.th) (h' : Steps s s') :
    s'.strong = 0 ∧ ∀ (t : Nat) v, s'.th[t]? = some (.upOk, v) → s.th[t]? = some (.upOk, v) := by
  have hc : cur s.sc = 0 := by
    rw [(invA h).scur, h0, sumBy_zero]
    rintro ⟨p, v⟩ hx
    cases p <;> simp [wS]
    exact hd v hx
  refine ⟨(dead_steps h h' hc).2.1, ?_⟩
  induction h' with
  | refl => exact fun _ _ h => h
  | snoc h1 hs ih =>
    intro t v ht
    obtain ⟨e, -, hi⟩ := dead_steps h h1 hc
    apply ih
    have a := invA hi
    cases hs
    case dropS | dropR | recv | up | join => 
      rcases snoc_cases' ht with ⟨-, h⟩ | h
      · simp at h
      · exact h
    case cloneS | cloneR | serve => exact ht
    case uCasOk t n v hn ht' => exact absurd (by rw [← ht', e]; exact hc) (a.cas t n v hn)
    all_goals
      rcases set_cases' ht with ⟨-, h⟩ | ⟨-, h⟩
      · simp at h
      · exact h

/-- **C44 (no premature shutdown).** While a strong address exists (also one that some `try_upgrade` has just created), no receive has
been told, or is about to return, that the channel is shut down, and no `try_upgrade` has been refused. -/
theorem C44_no_premature_shutdown {s : St} (h : Steps init s) (h0 : 0 < s.strong) {t : Nat} {p : Pc} {v : View}
    (ht : s.th[t]? = some (p, v)) : p ≠ .shut ∧ p ≠ .upNo ∧ p ≠ .rUnlock none := by
  have := (invA h).scur
  refine ⟨?_, ?_, ?_⟩ <;> rintro rfl <;> have := (invZ h).no t _ v ht (by simp) <;> omega

/-- **C44 (no join is left behind).** Under weak memory: once the last mailbox is gone and all calls have returned, every `join` that was
given a listener has had it notified. -/
theorem C44_no_join_left_waiting {s : St} (h : Steps init s) (hq : s.quiet) (h0 : s.boxes = 0)
    {t l : Nat} {v : View} (ht : s.th[t]? = some (.joins l, v)) : ∃ τ, s.lst[l]? = some (τ, true) := by
  have hc : cur s.rc = 0 := by rw [(invA h).rcur, h0, sumBy_zero (fun x hx => wR_final (hq x hx))]
  obtain ⟨τ, b, hb, rfl | h⟩ := (invJ h).js t l _ v ht (.inr rfl) hc
  · exact ⟨τ, hb⟩
  · refine (not_has hq h ?_).elim
    rintro p v (h | h | ⟨h, -⟩ | h) <;> subst h <;> rfl

/-- **C44 (no join returns early).** If a listener has been notified, no mailbox exists, and none ever will. -/
theorem C44_join_is_final {s s' : St} (h : Steps init s) {l τ : Nat} (hl : s.lst[l]? = some (τ, true)) (h' : Steps s s') : s'.boxes = 0 := by
  have hc := (invJ h).nt l τ hl
  have : s'.rc = s.rc ∧ s'.boxes = 0 ∧ Steps init s' := by
    induction h' with
    | refl => exact ⟨rfl, by have := (invA h).rcur; omega, h⟩
    | snoc h1 hs ih =>
      obtain ⟨e, -, hi⟩ := ih
      have hd := dead_step_r hs (invA hi) (by rw [e]; exact hc)
      exact ⟨hd.1.trans e, hd.2, .snoc hi hs⟩
  exact this.2.1

/-- **C44 (a join without listener).** If `join` found the channel disconnected, and so completes at once, then no strong address or no
mailbox exists. -/
theorem C44_join_at_once {s : St} (h : Steps init s) {t : Nat} {v : View} (ht : s.th[t]? = some (.joinNone, v)) :
    s.strong = 0 ∨ s.boxes = 0 := by
  have a := invA h
  have h1 := a.scur
  have h2 := a.rcur
  rcases (invZ h).jn t v ht with h | h
  · left; omega
  · right; omega

/-- A thread in the middle of `shutdown_waiting_receivers`. -/
def Pc.shutting : Pc → Bool
  | .sLock | .sTake | .sUnlock _ | .sNotify _ => true
  | _ => false

/-- Shutdown notices are given, and are being given, only when the count is zero. -/
structure InvC (s : St) : Prop where
  th : ∀ (t : Nat) p v, s.th[t]? = some (p, v) → p.shutting = true → cur s.sc = 0
  cell : ∀ c : Nat, s.cells[c]? = some .shut → cur s.sc = 0

theorem invC {s : St} (h : Steps init s) : InvC s := by
  induction h with
  | refl => exact ⟨by simp [init], by simp [init]⟩
  | @snoc s s' h1 hs ih =>
    have a := invA h1
    have up : cur s.sc = 0 → cur s'.sc = 0 := fun h => by rw [(dead_step hs a h).1]; exact h
    refine ⟨fun u p w hu hp => ?_, fun c hc => ?_⟩
    · suffices hh : (∃ q w', s.th[u]? = some (q, w') ∧ q.shutting = true) ∨ cur s'.sc = 0 by
        rcases hh with ⟨q, w', h2, h3⟩ | h
        · exact up (ih.th _ _ _ h2 h3)
        · exact h
      cases hs
      case cloneS | cloneR | serve => exact .inl ⟨p, w, hu, hp⟩
      case dropS | dropR | recv | up | join =>
        rcases snoc_cases' hu with ⟨-, h⟩ | h
        · simp at h; obtain ⟨rfl, rfl⟩ := h; simp [Pc.shutting] at hp
        · exact .inl ⟨p, w, h, hp⟩
      case sSubLast t v ht h =>
        exact .inr (by simp [St.go, cur_snoc]; omega)
      all_goals
        rcases set_cases' hu with ⟨e, h⟩ | ⟨-, h⟩
        · simp at h; obtain ⟨rfl, rfl⟩ := h
          subst e
          simp [Pc.shutting] at hp
          try (left; refine ⟨_, _, by assumption, ?_⟩; simp [Pc.shutting])
        · exact .inl ⟨p, w, h, hp⟩
    · suffices hh : s.cells[c]? = some .shut ∨ cur s.sc = 0 from up (hh.elim (ih.cell c) id)
      cases hs
      case serve d q hl hw hce =>
        rcases set_cases' hc with ⟨-, h⟩ | ⟨-, h⟩
        · simp at h
        · exact .inl h
      case sNotify t v d q ht hce =>
        exact .inr (ih.th _ _ _ ht rfl)
      case rReg t v ht =>
        rcases snoc_cases' hc with ⟨-, h⟩ | h
        · simp at h
        · exact .inl h
      all_goals exact .inl hc

/-- **C44 (shutdown notices are final).** If a receive that was waiting has been sent the shutdown notice, no strong address exists, and
none ever will. -/
theorem C44_notice_is_final {s s' : St} (h : Steps init s) {c : Nat} (hc : s.cells[c]? = some .shut) (h' : Steps s s') : s'.strong = 0 :=
  (dead_steps h h' ((invC h).cell c hc)).2.1

/-- All views point at values that exist; and the mutex, if locked, is locked by a thread that is inside the critical section. -/
structure InvV (s : St) : Prop where
  th : ∀ (t : Nat) p v, s.th[t]? = some (p, v) → v.s < s.sc.length ∧ v.r < s.rc.length ∧ v.l < s.fl.length
  lv : s.lockV.s < s.sc.length ∧ s.lockV.r < s.rc.length ∧ s.lockV.l < s.fl.length
  fv : s.fenceV.s < s.sc.length ∧ s.fenceV.r < s.rc.length ∧ s.fenceV.l < s.fl.length
  hold : ∀ u : Nat, s.lock = some u → ∃ p v, s.th[u]? = some (p, v) ∧ p.holds = true

theorem invV_step {s s' : St} (h : Step s s') (l : InvL s) (i : InvV s) : InvV s' := by
  obtain ⟨th, lv, fv, hold⟩ := i
  have mv : ∀ {t : Nat} {q : Pc} {w : View} {a b c : Nat}, s.sc.length ≤ a → s.rc.length ≤ b → s.fl.length ≤ c →
      w.s < a ∧ w.r < b ∧ w.l < c →
      ∀ (u : Nat) p v, (s.th.set t (q, w))[u]? = some (p, v) → v.s < a ∧ v.r < b ∧ v.l < c := by
    intro t q w a b c ha hb hc hw u p v hu
    rcases set_cases' hu with ⟨-, h⟩ | ⟨-, h⟩
    · simp at h; obtain ⟨-, rfl⟩ := h; exact hw
    · have := th u p v h; omega
  have nw : ∀ {q : Pc} (u : Nat) p v, (s.th ++ [(q, View.bot)])[u]? = some (p, v) →
      v.s < s.sc.length ∧ v.r < s.rc.length ∧ v.l < s.fl.length := by
    intro q u p v hu
    rcases snoc_cases' hu with ⟨-, h⟩ | h
    · simp at h; obtain ⟨-, rfl⟩ := h; simp [View.bot]; omega
    · exact th u p v h
  have nh : ∀ {q : T} (u : Nat), s.lock = some u → ∃ p v, (s.th ++ [q])[u]? = some (p, v) ∧ p.holds = true := by
    intro q u hu
    obtain ⟨p, v, h1, h2⟩ := hold u hu
    have := (List.getElem?_eq_some_iff.1 h1).1
    exact ⟨p, v, by rw [List.getElem?_append_left this]; exact h1, h2⟩
  have kh : ∀ {t : Nat} {x y : T}, s.th[t]? = some x → (x.1.holds = true → y.1.holds = true) →
      ∀ u : Nat, s.lock = some u → ∃ p v, (s.th.set t y)[u]? = some (p, v) ∧ p.holds = true := by
    intro t x y ht hxy u hu
    obtain ⟨p, v, h1, h2⟩ := hold u hu
    by_cases e : t = u
    · subst e
      rw [ht] at h1; simp at h1; subst h1
      have := (List.getElem?_eq_some_iff.1 ht).1
      exact ⟨y.1, y.2, by simp [List.getElem?_set, this], hxy h2⟩
    · exact ⟨p, v, by simp [List.getElem?_set, e, h1], h2⟩
  have ah : ∀ {t : Nat} {x y : T}, s.th[t]? = some x → y.1.holds = true →
      ∀ u : Nat, some t = some u → ∃ p v, (s.th.set t y)[u]? = some (p, v) ∧ p.holds = true := by
    intro t x y ht hy u hu
    simp at hu; subst hu
    have := (List.getElem?_eq_some_iff.1 ht).1
    exact ⟨y.1, y.2, by simp [List.getElem?_set, this], hy⟩
  cases h
  case cloneS => exact ⟨fun u p v hu => by have := th u p v hu; simp; omega, by simp; omega, by simp; omega, hold⟩
  case cloneR => exact ⟨fun u p v hu => by have := th u p v hu; simp; omega, by simp; omega, by simp; omega, hold⟩
  case serve => exact ⟨th, lv, fv, hold⟩
  case dropS | dropR | recv | up | join => exact ⟨nw, lv, fv, nh⟩
  case sSubLast ht _ =>
    have := th _ _ _ ht
    exact ⟨mv (by simp [St.go]) (Nat.le_refl _) (Nat.le_refl _) (by simp [St.go]; omega), by simp [St.go]; omega, by simp [St.go]; omega,
      kh ht (by simp [Pc.holds])⟩
  case sSubMore ht _ =>
    have := th _ _ _ ht
    exact ⟨mv (by simp [St.go]) (Nat.le_refl _) (Nat.le_refl _) (by simp [St.go]; omega), by simp [St.go]; omega, by simp [St.go]; omega,
      kh ht (by simp [Pc.holds])⟩
  case uCasOk ht _ =>
    have := th _ _ _ ht
    exact ⟨mv (by simp [St.go]) (Nat.le_refl _) (Nat.le_refl _) (by simp [St.go]; omega), by simp [St.go]; omega, by simp [St.go]; omega,
      kh ht (by simp [Pc.holds])⟩
  case mSubLast ht _ =>
    have := th _ _ _ ht
    exact ⟨mv (Nat.le_refl _) (by simp [St.go]) (Nat.le_refl _) (by simp [St.go]; omega), by simp [St.go]; omega, by simp [St.go]; omega,
      kh ht (by simp [Pc.holds])⟩
  case mSubMore ht _ =>
    have := th _ _ _ ht
    exact ⟨mv (Nat.le_refl _) (by simp [St.go]) (Nat.le_refl _) (by simp [St.go]; omega), by simp [St.go]; omega, by simp [St.go]; omega,
      kh ht (by simp [Pc.holds])⟩
  case mNotify ht =>
    have := th _ _ _ ht
    exact ⟨mv (Nat.le_refl _) (Nat.le_refl _) (by simp [St.go]) (by simp [St.go]; omega), by simp [St.go]; omega, by simp [St.go]; omega,
      kh ht (by simp [Pc.holds])⟩
  case jInsert ht =>
    have := th _ _ _ ht
    exact ⟨mv (Nat.le_refl _) (Nat.le_refl _) (by simp [St.go]) (by simp [St.go]; omega), by simp [St.go]; omega, by simp [St.go]; omega,
      kh ht (by simp [Pc.holds])⟩
  case sLock ht _ =>
    have := th _ _ _ ht
    exact ⟨mv (Nat.le_refl _) (Nat.le_refl _) (Nat.le_refl _) (by simp [View.join, St.go]; omega), lv, fv, ah ht rfl⟩
  case rLock ht _ =>
    have := th _ _ _ ht
    exact ⟨mv (Nat.le_refl _) (Nat.le_refl _) (Nat.le_refl _) (by simp [View.join, St.go]; omega), lv, fv, ah ht rfl⟩
  case mLock ht _ =>
    have := th _ _ _ ht
    exact ⟨mv (Nat.le_refl _) (Nat.le_refl _) (Nat.le_refl _) (by simp [View.join, St.go]; omega), lv, fv, ah ht rfl⟩
  case sUnlock ht =>
    have := th _ _ _ ht
    exact ⟨mv (Nat.le_refl _) (Nat.le_refl _) (Nat.le_refl _) this, this, fv, by simp [St.go]⟩
  case rUnlockWait ht =>
    have := th _ _ _ ht
    exact ⟨mv (Nat.le_refl _) (Nat.le_refl _) (Nat.le_refl _) this, this, fv, by simp [St.go]⟩
  case rUnlockShut ht =>
    have := th _ _ _ ht
    exact ⟨mv (Nat.le_refl _) (Nat.le_refl _) (Nat.le_refl _) this, this, fv, by simp [St.go]⟩
  case mUnlock ht =>
    have := th _ _ _ ht
    exact ⟨mv (Nat.le_refl _) (Nat.le_refl _) (Nat.le_refl _) this, this, fv, by simp [St.go]⟩
  case mFence ht =>
    have := th _ _ _ ht
    exact ⟨mv (Nat.le_refl _) (Nat.le_refl _) (Nat.le_refl _) (by simp [View.join, St.go]; omega), lv, by simp [View.join, St.go]; omega,
      kh ht (by simp [Pc.holds])⟩
  case jFence ht =>
    have := th _ _ _ ht
    exact ⟨mv (Nat.le_refl _) (Nat.le_refl _) (Nat.le_refl _) (by simp [View.join, St.go]; omega), lv, by simp [View.join, St.go]; omega,
      kh ht (by simp [Pc.holds])⟩
  case sTake ht => exact ⟨mv (Nat.le_refl _) (Nat.le_refl _) (Nat.le_refl _) (th _ _ _ ht), lv, fv, kh ht (by simp [Pc.holds])⟩
  case sNotify ht _ => exact ⟨mv (Nat.le_refl _) (Nat.le_refl _) (Nat.le_refl _) (th _ _ _ ht), lv, fv, kh ht (by simp [Pc.holds])⟩
  case sNotifyFull ht _ => exact ⟨mv (Nat.le_refl _) (Nat.le_refl _) (Nat.le_refl _) (th _ _ _ ht), lv, fv, kh ht (by simp [Pc.holds])⟩
  case sEnd ht => exact ⟨mv (Nat.le_refl _) (Nat.le_refl _) (Nat.le_refl _) (th _ _ _ ht), lv, fv, kh ht (by simp [Pc.holds])⟩
  case rReg ht => exact ⟨mv (Nat.le_refl _) (Nat.le_refl _) (Nat.le_refl _) (th _ _ _ ht), lv, fv, kh ht (by simp [Pc.holds])⟩
  all_goals
    first
    | (rename_i ht _ hk
       have h1 := th _ _ _ ht; have h2 := (List.getElem?_eq_some_iff.1 hk).1
       exact ⟨mv (Nat.le_refl _) (Nat.le_refl _) (Nat.le_refl _) (by simp [St.go]; omega), lv, fv, kh ht (by simp [Pc.holds])⟩)
    | (rename_i ht _ hk _
       have h1 := th _ _ _ ht; have h2 := (List.getElem?_eq_some_iff.1 hk).1
       exact ⟨mv (Nat.le_refl _) (Nat.le_refl _) (Nat.le_refl _) (by simp [St.go]; omega), lv, fv, kh ht (by simp [Pc.holds])⟩)

theorem invV {s : St} (h : Steps init s) : InvV s := by
  induction h with
  | refl => exact ⟨by simp [init], by decide, by decide, by simp [init]⟩
  | snoc h1 h ih => exact invV_step h (invL h1) ih

/-- Steps a thread has before it (at most), if it is let alone. -/
def rank : T → Nat
  | (p, _) => match p with
    | .done | .waits _ | .shut | .upOk | .upNo | .joins _ | .joinNone => 0
    | .sSub => 6 | .sLock => 5 | .sTake => 4 | .sUnlock q => 3 + q.length | .sNotify q => 1 + q.length
    | .rLock => 5 | .rLoad => 4 | .rReg => 3 | .rUnlock _ => 1
    | .uLoad => 2 | .uCas _ => 1
    | .mSub => 6 | .mLock => 5 | .mFence => 4 | .mCheck => 3 | .mNotify => 2 | .mUnlock => 1
    | .jInsert => 4 | .jFence _ => 3 | .jLoadR _ => 2 | .jLoadS _ => 1

/-- Work left. -/
def work (s : St) : Nat := sumBy rank s.th + s.wRx.length

theorem Steps.trans {a b c : St} (h1 : Steps a b) (h2 : Steps b c) : Steps a c := by
  induction h2 with
  | refl => exact h1
  | snoc _ h ih => exact .snoc ih h

theorem Steps.one {a b : St} (h : Step a b) : Steps a b := .snoc .refl h

/-- A thread whose call has not returned, and which need not wait for the lock, can go on. -/
theorem thread_runs {s : St} (h : Steps init s) {t : Nat} {p : Pc} {v : View} (ht : s.th[t]? = some (p, v)) (hf : p.final = false)
    (hl : p.holds = true ∨ s.lock = none) : ∃ s', Steps s s' ∧ work s' < work s ∧ s'.th.length = s.th.length := by
  have hv := (invV h).th t p v ht
  have a := invA h
  have mk : ∀ {s' : St} {y : T}, Steps s s' → s'.th = s.th.set t y → s'.wRx.length + rank y < s.wRx.length + rank (p, v) →
      ∃ s', Steps s s' ∧ work s' < work s ∧ s'.th.length = s.th.length := by
    intro s' y hs hth hr
    refine ⟨s', hs, ?_, by simp [hth]⟩
    have := sumBy_set rank y ht
    simp only [work, hth]; omega
  have hsv : ∃ n, s.sc[v.s]? = some n := ⟨_, List.getElem?_eq_getElem hv.1⟩
  have hrv : ∃ n, s.rc[v.r]? = some n := ⟨_, List.getElem?_eq_getElem hv.2.1⟩
  have hfv : ∃ n, s.fl[v.l]? = some n := ⟨_, List.getElem?_eq_getElem hv.2.2⟩
  have lck : p.holds = false → s.lock = none := fun h => hl.elim (fun h' => by simp [h] at h') id
  cases p
  case done | waits | shut | upOk | upNo | joins | joinNone => simp [Pc.final] at hf
  case sSub =>
    by_cases e : cur s.sc = 1
    · exact mk (.one (.sSubLast ht e)) rfl (by simp [rank, St.go])
    · exact mk (.one (.sSubMore ht e)) rfl (by simp [rank, St.go])
  case sLock => exact mk (.one (.sLock ht (lck rfl))) rfl (by simp [rank, St.go])
  case sTake => exact mk (.one (.sTake ht)) rfl (by simp [rank, St.go]; omega)
  case sUnlock => exact mk (.one (.sUnlock ht)) rfl (by simp [rank, St.go])
  case sNotify q =>
    cases q with
    | nil => exact mk (.one (.sEnd ht)) rfl (by simp [rank, St.go])
    | cons c q =>
      by_cases e : s.cells[c]? = some Cell.empty
      · exact mk (.one (.sNotify ht e)) rfl (by simp [rank, St.go])
      · exact mk (.one (.sNotifyFull ht e)) rfl (by simp [rank, St.go])
  case rLock => exact mk (.one (.rLock ht (lck rfl))) rfl (by simp [rank, St.go])
  case rLoad =>
    obtain ⟨n, hn⟩ := hsv
    by_cases e : n = 0
    · subst e; exact mk (.one (.rLoadZero ht (Nat.le_refl _) hn)) rfl (by simp [rank, St.go])
    · exact mk (.one (.rLoadMore ht (Nat.le_refl _) hn e)) rfl (by simp [rank, St.go])
  case rReg => exact mk (.one (.rReg ht)) rfl (by simp [rank, St.go])
  case rUnlock c =>
    cases c with
    | none => exact mk (.one (.rUnlockShut ht)) rfl (by simp [rank, St.go])
    | some c => exact mk (.one (.rUnlockWait ht)) rfl (by simp [rank, St.go])
  case uLoad =>
    obtain ⟨n, hn⟩ := hsv
    by_cases e : n = 0
    · subst e; exact mk (.one (.uLoadZero ht (Nat.le_refl _) hn)) rfl (by simp [rank, St.go])
    · exact mk (.one (.uLoadMore ht (Nat.le_refl _) hn e)) rfl (by simp [rank, St.go])
  case uCas n =>
    by_cases e : cur s.sc = n
    · exact mk (.one (.uCasOk ht e)) rfl (by simp [rank, St.go])
    · have hk := cur_eq a.sne
      have hle : v.s ≤ s.sc.length - 1 := by omega
      by_cases e0 : cur s.sc = 0
      · rw [e0] at hk
        exact mk (.one (.uCasFailZero ht hle hk)) rfl (by simp [rank, St.go])
      · have h1 := Step.uCasFailMore ht hle hk e0
        have hlt := (List.getElem?_eq_some_iff.1 ht).1
        have h2 := Step.uCasOk (s := s.go t (.uCas (cur s.sc)) { v with s := s.sc.length - 1 }) (t := t) (n := cur s.sc)
          (v := { v with s := s.sc.length - 1 }) (by simp [St.go, hlt]) rfl
        exact mk (y := (.upOk, { { v with s := s.sc.length - 1 } with s := s.sc.length })) ((Steps.one h1).snoc h2) (by simp [St.go])
          (by simp [rank, St.go])
  case mSub =>
    by_cases e : cur s.rc = 1
    · exact mk (.one (.mSubLast ht e)) rfl (by simp [rank, St.go])
    · exact mk (.one (.mSubMore ht e)) rfl (by simp [rank, St.go])
  case mLock => exact mk (.one (.mLock ht (lck rfl))) rfl (by simp [rank, St.go])
  case mFence => exact mk (.one (.mFence ht)) rfl (by simp [rank, St.go])
  case mCheck =>
    obtain ⟨b, hb⟩ := hfv
    cases b
    · exact mk (.one (.mCheckNone ht (Nat.le_refl _) hb)) rfl (by simp [rank, St.go])
    · exact mk (.one (.mCheckSome ht (Nat.le_refl _) hb)) rfl (by simp [rank, St.go])
  case mNotify => exact mk (.one (.mNotify ht)) rfl (by simp [rank, St.go])
  case mUnlock => exact mk (.one (.mUnlock ht)) rfl (by simp [rank, St.go])
  case jInsert => exact mk (.one (.jInsert ht)) rfl (by simp [rank, St.go])
  case jFence => exact mk (.one (.jFence ht)) rfl (by simp [rank, St.go])
  case jLoadR =>
    obtain ⟨n, hn⟩ := hrv
    by_cases e : n = 0
    · subst e; exact mk (.one (.jLoadRZero ht (Nat.le_refl _) hn)) rfl (by simp [rank, St.go])
    · exact mk (.one (.jLoadRMore ht (Nat.le_refl _) hn e)) rfl (by simp [rank, St.go])
  case jLoadS =>
    obtain ⟨n, hn⟩ := hsv
    by_cases e : n = 0
    · subst e; exact mk (.one (.jLoadSZero ht (Nat.le_refl _) hn)) rfl (by simp [rank, St.go])
    · exact mk (.one (.jLoadSMore ht (Nat.le_refl _) hn e)) rfl (by simp [rank, St.go])

/-- **C44 (no deadlock).** From every reachable state all calls under way can be run to their end, without any further call being made. -/
theorem C44_calls_can_finish {s : St} (h : Steps init s) : ∃ s', Steps s s' ∧ s'.quiet ∧ s'.th.length = s.th.length := by
  generalize hn : work s = n
  induction n using Nat.strongRecOn generalizing s with
  | _ n ih =>
    by_cases hq : s.quiet
    · exact ⟨s, .refl, hq, rfl⟩
    · have : ∃ s', Steps s s' ∧ work s' < work s ∧ s'.th.length = s.th.length := by
        cases hl : s.lock with
        | some u =>
          obtain ⟨p, v, h1, h2⟩ := (invV h).hold u hl
          exact thread_runs h h1 (by cases p <;> simp [Pc.holds, Pc.final] at *) (.inl h2)
        | none =>
          have : ∃ x ∈ s.th, x.1.final = false := by
            refine Classical.byContradiction fun hc => hq fun x hx => ?_
            cases hx' : x.1.final
            · exact absurd ⟨x, hx, hx'⟩ hc
            · rfl
          obtain ⟨⟨p, v⟩, hx, hf⟩ := this
          obtain ⟨t, ht⟩ := List.mem_iff_getElem?.1 hx
          exact thread_runs h ht hf (.inr hl)
      obtain ⟨s1, h1, h2, h3⟩ := this
      obtain ⟨s2, h4, h5, h6⟩ := ih (work s1) (by omega) (h.trans h1) rfl
      exact ⟨s2, h1.trans h4, h5, h6.trans h3⟩

/-! ## Concrete executions -/

/-- A receive waits (thread 0); then the last strong address is dropped (thread 1). The receive is fulfilled by the dropper.
Meets the hypotheses of `C44_no_receive_left_waiting`, `C44_notice_is_final`. -/
example : ∃ s, Steps init s ∧ s.quiet ∧ s.strong = 0 ∧ s.th[0]? = some (.waits 0, ⟨0, 0, 0⟩) ∧ s.cells[0]? = some .shut := by
  have h : Steps init _ := .refl
  have h := h.snoc .recv
  have h := h.snoc (.rLock (t := 0) rfl rfl)
  have h := h.snoc (.rLoadMore (t := 0) (k := 0) (n := 1) rfl (by decide) rfl (by decide))
  have h := h.snoc (.rReg (t := 0) rfl)
  have h := h.snoc (.rUnlockWait (t := 0) rfl)
  have h := h.snoc (.dropS (by decide))
  have h := h.snoc (.sSubLast (t := 1) rfl rfl)
  have h := h.snoc (.sLock (t := 1) rfl rfl)
  have h := h.snoc (.sTake (t := 1) rfl)
  have h := h.snoc (.sUnlock (t := 1) rfl)
  have h := h.snoc (.sNotify (t := 1) rfl rfl)
  have h := h.snoc (.sEnd (t := 1) rfl)
  exact ⟨_, h, by unfold St.quiet; decide, by decide, rfl, rfl⟩

/-- A stale load: the count is already zero, but a receive that gets the lock before the dropper still reads the old value 1 and
registers. It is fulfilled all the same. (The load of `try_recv` happens although the decrement precedes it in real time.)
Meets the hypotheses of `C44_no_receive_left_waiting`. -/
example : ∃ s, Steps init s ∧ s.quiet ∧ s.strong = 0 ∧ (∃ v, s.th[1]? = some (.waits 0, v)) ∧ s.cells[0]? = some .shut := by
  have h : Steps init _ := .refl
  have h := h.snoc (.dropS (by decide))
  have h := h.snoc (.sSubLast (t := 0) rfl rfl)
  have h := h.snoc .recv
  have h := h.snoc (.rLock (t := 1) rfl rfl)
  have h := h.snoc (.rLoadMore (t := 1) (k := 0) (n := 1) rfl (by decide) rfl (by decide))
  have h := h.snoc (.rReg (t := 1) rfl)
  have h := h.snoc (.rUnlockWait (t := 1) rfl)
  have h := h.snoc (.sLock (t := 0) rfl rfl)
  have h := h.snoc (.sTake (t := 0) rfl)
  have h := h.snoc (.sUnlock (t := 0) rfl)
  have h := h.snoc (.sNotify (t := 0) rfl rfl)
  have h := h.snoc (.sEnd (t := 0) rfl)
  exact ⟨_, h, by unfold St.quiet; decide, by decide, ⟨_, rfl⟩, rfl⟩

/-- A stale load in `try_upgrade`: it reads 1 when the count is 0; the CAS fails and the upgrade is refused.
Meets the hypotheses of `C44_refusal_is_final`, `C44_no_resurrection`. -/
example : ∃ s, Steps init s ∧ s.strong = 0 ∧ (∃ v, s.th[1]? = some (.upNo, v)) ∧ s.sc = [1, 0] := by
  have h : Steps init _ := .refl
  have h := h.snoc (.dropS (by decide))
  have h := h.snoc (.sSubLast (t := 0) rfl rfl)
  have h := h.snoc .up
  have h := h.snoc (.uLoadMore (t := 1) (k := 0) (n := 1) rfl (by decide) rfl (by decide))
  have h := h.snoc (.uCasFailZero (t := 1) (k := 1) rfl (by decide) rfl)
  exact ⟨_, h, by decide, ⟨_, rfl⟩, rfl⟩

/-- An upgrade that wins the race against the last drop: the drop that was under way is then not the last one, and nobody shuts down.
Meets the hypotheses of `C44_no_premature_shutdown`. -/
example : ∃ s, Steps init s ∧ s.quiet ∧ s.strong = 1 ∧ (∃ v, s.th[1]? = some (.upOk, v)) ∧ (∃ v, s.th[0]? = some (.done, v)) ∧
    s.sc = [1, 2, 1] := by
  have h : Steps init _ := .refl
  have h := h.snoc (.dropS (by decide))
  have h := h.snoc .up
  have h := h.snoc (.uLoadMore (t := 1) (k := 0) (n := 1) rfl (by decide) rfl (by decide))
  have h := h.snoc (.uCasOk (t := 1) rfl rfl)
  have h := h.snoc (.sSubMore (t := 0) rfl (by decide))
  exact ⟨_, h, by unfold St.quiet; decide, by decide, ⟨_, rfl⟩, ⟨_, rfl⟩, rfl⟩

/-- A `join` given a listener while the count of mailboxes is already zero (a stale load); the dropper has not passed its fence, so it sees
the listener and notifies it. Meets the hypotheses of `C44_no_join_left_waiting`, `C44_join_is_final`. -/
example : ∃ s, Steps init s ∧ s.quiet ∧ s.boxes = 0 ∧ (∃ v, s.th[1]? = some (.joins 0, v)) ∧ s.lst[0]? = some (1, true) := by
  have h : Steps init _ := .refl
  have h := h.snoc (.dropR (by decide))
  have h := h.snoc (.mSubLast (t := 0) rfl rfl)
  have h := h.snoc .join
  have h := h.snoc (.jInsert (t := 1) rfl)
  have h := h.snoc (.jFence (t := 1) rfl)
  have h := h.snoc (.jLoadRMore (t := 1) (k := 0) (n := 1) rfl (by decide) rfl (by decide))
  have h := h.snoc (.jLoadSMore (t := 1) (k := 0) (n := 1) rfl (by decide) rfl (by decide))
  have h := h.snoc (.mLock (t := 0) rfl rfl)
  have h := h.snoc (.mFence (t := 0) rfl)
  have h := h.snoc (.mCheckSome (t := 0) (k := 1) rfl (by decide) rfl)
  have h := h.snoc (.mNotify (t := 0) rfl)
  have h := h.snoc (.mUnlock (t := 0) rfl)
  exact ⟨_, h, by unfold St.quiet; decide, by decide, ⟨_, rfl⟩, rfl⟩

/-- A `join` after the end: it completes at once. Meets the hypotheses of `C44_join_at_once`. -/
example : ∃ s, Steps init s ∧ s.boxes = 0 ∧ (∃ v, s.th[1]? = some (.joinNone, v)) := by
  have h : Steps init _ := .refl
  have h := h.snoc (.dropR (by decide))
  have h := h.snoc (.mSubLast (t := 0) rfl rfl)
  have h := h.snoc .join
  have h := h.snoc (.jInsert (t := 1) rfl)
  have h := h.snoc (.jFence (t := 1) rfl)
  have h := h.snoc (.jLoadRZero (t := 1) (k := 1) rfl (by decide) rfl)
  exact ⟨_, h, by decide, ⟨_, rfl⟩⟩

end Xtra.Weak
