/-!
# The reference counters as machine words (C75)

Models `xtra/src/chan/ptr.rs:15-113, 124-159, 218-300` (`Ptr`, its constructors, `clone`, `drop`, `TxStrong::try_new`) and
`xtra/src/chan.rs:58-90` (`on_receiver_created`, `on_receiver_dropped`, `on_sender_created`, `on_sender_dropped`) with the two counters of
the channel and the reference count of the `Arc<Chan>` as machine words that wrap around. `Verif/Model.lean` takes the two counters for
natural numbers; here this is justified. Any number of threads make and drop pointers of all kinds; each atomic operation is one step.

Modelled of `std::sync::Arc`: `clone` adds 1 to the count and aborts the process if the old value was greater than `isize::MAX`
(addition and check are two steps); `drop` subtracts 1, and whoever sees the old value 1 frees the channel.

Simplified: the loads and stores are sequentially consistent (read-modify-writes of one word are totally ordered in any memory model; the
relaxed load in `try_new` is confirmed by the compare-exchange; for a stale 0 see C15, C44). What the last dropper does to the channel
is in `Verif/Model.lean`. A pointer from which another one is being made is borrowed and cannot be dropped meanwhile (guaranteed by Rust); the
model assumes only a consequence, that the last pointer of a kind is not dropped while somebody borrows one of that kind.
-/

namespace Xtra

/-- The three kinds of `Ptr` that are counted differently (`TxEither` is one or the other). -/
inductive PKind where
  | strong
  | weak
  | rx
  deriving DecidableEq, Repr

/-- Where a thread is in an operation on a pointer. -/
inductive CPc where
  | idle
  /-- `Arc::clone`: `fetch_add` returned `old`, the check against overflow is next. `j` is the kind
  of the pointer it is made from, `up`: by `try_to_tx_strong`. -/
  | check (j k : PKind) (up : Bool) (old : Nat)
  /-- about to `make_new` (ptr.rs:82, 92, 51; chan.rs:60, 78) -/
  | count (j k : PKind)
  /-- `TxStrong::try_new`: about to load (ptr.rs:137) -/
  | upLoad (j : PKind)
  /-- loaded `n`, in the loop (ptr.rs:139-156) -/
  | upCas (j : PKind) (n : Nat)
  /-- `Ptr::drop`: about to `destroy` (ptr.rs:100-103; chan.rs:66, 84) -/
  | dec (k : PKind)
  /-- then the `Arc` is dropped; likewise when `try_new` gave `None` -/
  | arcDec
  deriving DecidableEq, Repr

/-- The kind of pointer that the operation borrows. -/
def CPc.borrows : CPc → Option PKind
  | .check j _ _ _ => some j
  | .count j _ => some j
  | .upLoad j => some j
  | .upCas j _ => some j
  | _ => none

/-- The words, the number of pointers that exist (owned by somebody, or leaked), and the threads. -/
structure CSt where
  arc : Nat
  snd : Nat
  rcv : Nat
  nS : Nat
  nW : Nat
  nR : Nat
  th : List CPc
  deriving DecidableEq, Repr

/-- Pointers of kind `k`. -/
def CSt.live (s : CSt) : PKind → Nat
  | .strong => s.nS
  | .weak => s.nW
  | .rx => s.nR

def CSt.addPtr (s : CSt) : PKind → CSt
  | .strong => { s with nS := s.nS + 1 }
  | .weak => { s with nW := s.nW + 1 }
  | .rx => { s with nR := s.nR + 1 }

def CSt.delPtr (s : CSt) : PKind → CSt
  | .strong => { s with nS := s.nS - 1 }
  | .weak => { s with nW := s.nW - 1 }
  | .rx => { s with nR := s.nR - 1 }

def CSt.goto (s : CSt) (t : Nat) (p : CPc) : CSt := { s with th := s.th.set t p }

/-- `fetch_add(1)` on words with `N` values. -/
def wadd (N n : Nat) : Nat := (n + 1) % N

/-- `fetch_sub(1)`. -/
def wsub (N n : Nat) : Nat := (n + (N - 1)) % N

/-- `RefCounter::make_new` (ptr.rs:232-236, 249-251, 286-290): the word of the kind. -/
def CSt.inc (N : Nat) (s : CSt) : PKind → CSt
  | .strong => { s with snd := wadd N s.snd }
  | .weak => s
  | .rx => { s with rcv := wadd N s.rcv }

/-- `RefCounter::destroy` (ptr.rs:238-240, 253, 292-294). -/
def CSt.decr (N : Nat) (s : CSt) : PKind → CSt
  | .strong => { s with snd := wsub N s.snd }
  | .weak => s
  | .rx => { s with rcv := wsub N s.rcv }

/-- The word before `destroy` (chan.rs:66, 84); a weak pointer looks at none. -/
def CSt.word (s : CSt) : PKind → Option Nat
  | .strong => some s.snd
  | .weak => none
  | .rx => some s.rcv

/-- `make_new` makes a pointer of kind `k` from one of kind `j`: `clone` and `to_tx_either` (ptr.rs:81-84, 90-94), `to_tx_weak` (ptr.rs:48-53). -/
def PKind.from (k j : PKind) : Prop := k = j ∨ k = .weak

/-- What an operation finds out. -/
inductive CEv where
  | none
  /-- this was the last strong address, or mailbox: the channel is shut down (chan.rs:66, 84) -/
  | last (k : PKind)
  /-- `try_new` returned `Some`, or `None` -/
  | upgraded (ok : Bool)
  /-- the channel is deallocated -/
  | freed
  deriving DecidableEq, Repr

/-- One atomic operation of thread `t`. `M` is `isize::MAX`, the words have `2 * M + 2` values. `guard`: whether `Arc::clone` checks.
A check that fails aborts the process: there is no step. -/
inductive CStep (guard : Bool) (M : Nat) : CSt → CEv → CSt → Prop where
  /-- `self.inner.clone()` (ptr.rs:50, 57, 82, 91) -/
  | clone {s : CSt} {t : Nat} {k j : PKind} : s.th[t]? = some .idle → k.from j → 0 < s.live j →
      CStep guard M s .none ({ s with arc := wadd (2 * M + 2) s.arc }.goto t (.check j k false s.arc))
  | upgrade {s : CSt} {t : Nat} {j : PKind} : s.th[t]? = some .idle → 0 < s.live j →
      CStep guard M s .none ({ s with arc := wadd (2 * M + 2) s.arc }.goto t (.check j .strong true s.arc))
  | checked {s : CSt} {t : Nat} {j k : PKind} {old : Nat} : s.th[t]? = some (.check j k false old) → (guard = true → old ≤ M) →
      CStep guard M s .none (s.goto t (.count j k))
  | checkedUp {s : CSt} {t : Nat} {j k : PKind} {old : Nat} : s.th[t]? = some (.check j k true old) → (guard = true → old ≤ M) →
      CStep guard M s .none (s.goto t (.upLoad j))
  | count {s : CSt} {t : Nat} {j k : PKind} : s.th[t]? = some (.count j k) →
      CStep guard M s .none (((s.inc (2 * M + 2) k).addPtr k).goto t .idle)
  | load {s : CSt} {t : Nat} {j : PKind} : s.th[t]? = some (.upLoad j) → CStep guard M s .none (s.goto t (.upCas j s.snd))
  /-- `if n == 0 { return None }`: the clone of the `Arc` is dropped -/
  | refuse {s : CSt} {t : Nat} {j : PKind} : s.th[t]? = some (.upCas j 0) → CStep guard M s (.upgraded false) (s.goto t .arcDec)
  | cas {s : CSt} {t : Nat} {j : PKind} {n : Nat} : s.th[t]? = some (.upCas j n) → n ≠ 0 → s.snd = n →
      CStep guard M s (.upgraded true) (({ s with snd := wadd (2 * M + 2) n }.addPtr .strong).goto t .idle)
  /-- `compare_exchange_weak` failed, maybe spuriously -/
  | casFails {s : CSt} {t : Nat} {j : PKind} {n : Nat} : s.th[t]? = some (.upCas j n) → n ≠ 0 → CStep guard M s .none (s.goto t (.upCas j s.snd))
  /-- `drop` begins -/
  | drop {s : CSt} {t : Nat} {k : PKind} : s.th[t]? = some .idle → 0 < s.live k →
      (1 < s.live k ∨ ∀ p ∈ s.th, p.borrows ≠ some k) → CStep guard M s .none ((s.delPtr k).goto t (.dec k))
  /-- `if fetch_sub(1) != 1 { return }` -/
  | destroyLast {s : CSt} {t : Nat} {k : PKind} : s.th[t]? = some (.dec k) → s.word k = some 1 →
      CStep guard M s (.last k) ((s.decr (2 * M + 2) k).goto t .arcDec)
  | destroy {s : CSt} {t : Nat} {k : PKind} : s.th[t]? = some (.dec k) → s.word k ≠ some 1 →
      CStep guard M s .none ((s.decr (2 * M + 2) k).goto t .arcDec)
  | arcLast {s : CSt} {t : Nat} : s.th[t]? = some .arcDec → s.arc = 1 →
      CStep guard M s .freed ({ s with arc := wsub (2 * M + 2) s.arc }.goto t .idle)
  | arcDrop {s : CSt} {t : Nat} : s.th[t]? = some .arcDec → s.arc ≠ 1 →
      CStep guard M s .none ({ s with arc := wsub (2 * M + 2) s.arc }.goto t .idle)

/-- After `chan::new` (chan.rs:31-38): one address, one mailbox, in a program with `n` threads. -/
def CSt.start (n : Nat) : CSt := ⟨2, 1, 1, 1, 0, 1, List.replicate n .idle⟩

inductive CRun (guard : Bool) (M n : Nat) : CSt → Prop where
  | start : CRun guard M n (CSt.start n)
  | step {s s' : CSt} {e : CEv} : CRun guard M n s → CStep guard M s e s' → CRun guard M n s'

end Xtra
