import Verif.PropsStopAll
import Verif.PropsNet
/-! # C58: custom event loops made of `yield_once`

`xtra/examples/custom_event_loop.rs:29-54` shows one: code that owns a mailbox awaits `mailbox.next()` and then `msg.dispatch_to(&mut actor)`
whenever it likes, and stops when that gives `Break`. That is the body of `yield_once` (`xtra/src/lib.rs:240-246`). In the model (`Verif/Pool.lean`) this is a task in its first phase (`starting`), before any `next` of its own: its user code
may call `yield_once` (`Lvl.once`) and `select` any number of times, one after the other, and give up its mailbox in the end. Handlers may
call them too, to any depth. -/

set_option linter.unusedSimpArgs false

namespace Xtra

/-! ## Specification -/

/-- The task is a custom event loop: it owns a mailbox, and receives from it by calls of `yield_once` and `select` only. -/
def Task.customLoop (T : Task) : Prop := T.lvl = .run ∧ T.ph = .starting

/-- What happens without new API calls of user code (`AutosC`: steps of API calls in progress, of tasks, of clients that await a future
in `A`), except that custom event loops call `yield_once` again. No task is dropped. -/
inductive LoopsC (A : Nat → Prop) : PCfg → PCfg → Prop where
  | refl {c : PCfg} : LoopsC A c c
  | step {c c1 c2 : PCfg} : AutoC A c c1 → NoDrop c c1 → LoopsC A c1 c2 → LoopsC A c c2
  | again {c c2 : PCfg} {k : Nat} {T : Task} : c.ts[k]? = some T → T.customLoop → c.onTop T →
      LoopsC A { c with ts := c.ts ++ [⟨T.i, T.b, .idle, [], [], false, .once⟩] } c2 → LoopsC A c c2

/-! ## Proofs -/

/-- **C58.** `yield_once` handles exactly one message: when it has returned, it has made one receive future, received one message with it and
dispatched it, in full; what it returns is what that dispatch evaluated to, which is `Break` if the message was a shutdown notice. Until then
it has dispatched nothing, and neither has a `yield_once` that was dropped. -/
theorem C58_one_message {cap : Option Nat} {closed : Bool} {c : PCfg} (h : PRun cap closed c) {T : Task} (hT : T ∈ c.ts)
    (hl : T.lvl = .once) :
    (T.ph = .done → T.aborted = false → ∃ r am brk v, T.futs = [r] ∧ T.hist = [(r, am, brk)] ∧ Ev.recv r T.b am ∈ c.s.w.log ∧
      c.s.w.dispatched T.b am v brk ∧ (am.isStop = true → brk = true)) ∧
    (T.ph ≠ .done ∨ T.aborted = true → T.hist = [] ∧ T.futs.length ≤ 1) := by
  obtain ⟨k, hk⟩ := List.getElem?_of_mem hT
  obtain ⟨sh, ti⟩ := (pInv_run h).all k T hk
  obtain ⟨h1, h2⟩ := onceOk_run h hT hl
  unfold TaskOk at sh
  refine ⟨fun hd ha => ?_, fun hx => ?_⟩
  · obtain ⟨⟨r, am, brk⟩, he⟩ := h2 hd ha
    obtain ⟨-, h3, h5, v, h4⟩ := ti.hist r am brk (by simp [he])
    rw [hd, ha] at sh
    simp [TaskOkP, hl] at sh
    exact ⟨r, am, brk, v, by simp [sh.1, he], he, h3, h4, h5⟩
  · have he := h1 hx
    refine ⟨he, ?_⟩
    cases hp : T.ph <;> rw [hp, he] at sh <;> simp [TaskOkP, hl] at sh <;> grind

/-- **C58.** Whatever was received from the mailbox of a custom event loop was received by one of its calls of `yield_once` or `select` (or by
one made by a handler they ran), and only by that one; which has dispatched it in full, unless it is busy with it or was dropped. -/
theorem C58_loop_handles {cap : Option Nat} {c : PCfg} (h : PRun cap true c) {T : Task} (hT : T ∈ c.ts) (hl : T.customLoop) {r : Nat}
    {am : AMsg} (he : Ev.recv r T.b am ∈ c.s.w.log) :
    ∃ U ∈ c.ts, U.lvl ≠ .run ∧ U.b = T.b ∧ r ∈ U.futs ∧ (∀ V ∈ c.ts, r ∈ V.futs → V = U) ∧
      (U.ph.busyWith r am ∨ U.aborted = true ∨ ∃ v brk, (r, am, brk) ∈ U.hist ∧ c.s.w.dispatched T.b am v brk) := by
  obtain ⟨U, hU, hf⟩ := received_by h he
  have hb : U.b = T.b := (futs_box h hU hf he).symm
  obtain ⟨k, hk⟩ := List.getElem?_of_mem hT
  obtain ⟨l, hk'⟩ := List.getElem?_of_mem hU
  refine ⟨U, hU, fun hn => ?_, hb, hf, fun V hV hfV => ?_, ?_⟩
  · have := (boxInv_run h).inj l k U T hk' hk hn hl.1 hb
    subst this
    rw [hk] at hk'; simp at hk'; subst hk'
    have ok := ((pInv_run h).all l T hk).1
    unfold TaskOk at ok; rw [hl.2] at ok
    rw [ok.1] at hf; simp at hf
  · obtain ⟨m, hm⟩ := List.getElem?_of_mem hV
    apply Classical.byContradiction
    intro hne
    have : m ≠ l := by rintro rfl; rw [hk'] at hm; simp at hm; exact hne hm.symm
    exact (pInv_run h).disj m l V U hm hk' this r hfV hf
  · rcases C48_received_is_handled h hU hf he with h1 | ⟨h1, -⟩ | ⟨v, brk, h1, h2⟩
    · exact .inl h1
    · exact .inr (.inl h1)
    · exact .inr (.inr ⟨v, brk, h1, hb ▸ h2⟩)

theorem LoopsC.run {A : Nat → Prop} {cap : Option Nat} {closed : Bool} {c c' : PCfg} (h : LoopsC A c c') :
    PRun cap closed c → PRun cap closed c' ∧
      ∀ f i bc, c.s.unresolved f i bc ∨ c.s.w.resolved f i bc → c'.s.unresolved f i bc ∨ c'.s.w.resolved f i bc := by
  induction h with
  | refl => exact fun hr => ⟨hr, fun _ _ _ h => h⟩
  | step h1 _ _ ih =>
    intro hr
    obtain ⟨h2, h3⟩ := ih (.step hr h1.pstep)
    exact ⟨h2, fun f i bc hu => h3 f i bc (h1.unresolved hr hu)⟩
  | again hk hl hot _ ih =>
    intro hr
    obtain ⟨h2, h3⟩ := ih (.step hr (.nest hk hot (by simp [Task.given, hl.2]) (.inr rfl)))
    exact ⟨h2, fun f i bc hu => h3 f i bc hu⟩

/-- **C58.** A custom event loop serves requests as `run` does: let messages be received by the tasks only, let no task be dropped and the
capacity not be 0. However it goes on from there, the loop calling `yield_once` again and again: once nothing more can happen without a new
API call and the loop is waiting in `yield_once`, every awaited request (not lost in the race of C03) has been answered with the value its
handler returned, unless that handler itself waits in a `yield_once`. -/
theorem C58_answered {A : Nat → Prop} {cap : Option Nat} {c c' : PCfg} (h : PRun cap true c) (hcap : cap ≠ some 0)
    {f i : Nat} (hf : A f) (hu : c.s.unresolved f i false) (hs : LoopsC A c c') (ha : ∀ T ∈ c'.ts, T.aborted = false)
    (hl : .lost i ∉ c'.s.w.log) (he : ¬ ∃ c2, AutoC A c' c2 ∧ NoDrop c' c2)
    (hz : ∃ T ∈ c'.ts, T.customLoop ∧ ∃ U ∈ c'.ts, U.lvl = .once ∧ U.b = T.b ∧ U.asleep c'.s.w) :
    (∃ v, .replyOk f i v ∈ c'.s.w.log ∧ .handled i v ∈ c'.s.w.log) ∨ c'.yields i := by
  obtain ⟨T, hT, hl', -⟩ := hz
  obtain ⟨hr, h1⟩ := hs.run h
  have hz : ∃ T ∈ c'.ts, T.ph ≠ .done := ⟨T, hT, by rw [hl'.2]; simp⟩
  rcases h1 f i false (.inl hu) with hu' | hre
  · exact C51_answered hr hcap hf hu' .refl ha hl he hz
  · have hq : c'.atRestC A := Classical.byContradiction fun hn => he (C51_progress hr hn)
    rcases rest_ok hr hcap hq.1 hz hre with h2 | ⟨-, ⟨U, hU, h2⟩ | ⟨h2, -⟩⟩
    · exact .inl h2
    · have := ha U hU; rw [h2.1] at this; simp at this
    · exact absurd h2 hl

/-- **C58.** It is told to stop as `run` is: let a notice of `stop_all` be in the mailbox of a custom event loop. When everything has come to rest
then the loop has given up its mailbox, or one of its calls of `yield_once` or `select` (or one made by a handler) has received the notice, and
has evaluated it to `Break`: a `yield_once` has returned `Break`. No task was dropped. -/
theorem C58_told {cap : Option Nat} {c c' : PCfg} (h : PRun cap true c) {k : Nat} {T : Task} (hT : c.ts[k]? = some T) (hl : T.customLoop)
    {n : Msg} (hn : n ∈ c.s.w.items T.b) (hp : n.prio = .shutdown) (hs : PSteps true c c') (hq : c'.settled)
    (ha : ∀ U ∈ c'.ts, U.aborted = false) :
    ∃ T', c'.ts[k]? = some T' ∧ (T'.ph = .done ∨ ∃ U ∈ c'.ts, U.lvl ≠ .run ∧ U.b = T.b ∧
      (∃ r, (r, .all n, true) ∈ U.hist) ∧ (U.lvl = .once → U.ph = .done ∧ ∃ r, U.hist = [(r, .all n, true)])) := by
  obtain ⟨T', hT', h1 | ⟨U, hU, h1, h2, r, h3⟩⟩ := C57_stops h hT hl.1 hn hp hs hq ha
  · exact ⟨T', hT', .inl h1⟩
  · refine ⟨T', hT', .inr ⟨U, hU, h1, h2, ⟨r, h3⟩, fun ho => ?_⟩⟩
    obtain ⟨h4, h5⟩ := C58_one_message (hs.run h) hU ho
    have hd : U.ph = .done := by
      apply Classical.byContradiction
      intro hn
      rw [(h5 (.inl hn)).1] at h3; simp at h3
    obtain ⟨r', am, brk, v, -, h6, -⟩ := h4 hd (ha U hU)
    rw [h6] at h3
    simp at h3
    obtain ⟨rfl, rfl, rfl⟩ := h3
    exact ⟨hd, r, h6⟩

/-! ## Concrete executions -/

/-- A custom event loop calls `yield_once`, which handles a request; it calls it again; another request is sent. -/
def loopStart : List PAct :=
  [.spawn 1, .yieldOnce 0, .other (.call (.send 0)), .other (.call (.pollSend 2 6)), .other (.exec 1), .other (.exec 1), .other (.exec 1),
   .other (.exec 1), .other (.exec 1), .task 1 .next, .task 1 (.poll 5), .other (.exec 3), .task 1 .ready, .task 1 .dispatch,
   .task 1 (.finish 7), .other (.exec 5), .other (.exec 5), .other (.exec 5), .task 1 .return, .yieldOnce 0, .other (.call (.send 0)),
   .other (.call (.pollSend 4 6)), .other (.exec 7), .other (.exec 7), .other (.exec 7), .other (.exec 7), .other (.exec 7)]
/-- Its handler calls `yield_once` itself, and waits there. -/
def loopSteps : List PAct :=
  [.task 2 .next, .task 2 (.poll 5), .other (.exec 9), .task 2 .ready, .task 2 .dispatch, .yieldOnce 2, .task 3 .next, .task 3 (.poll 5),
   .other (.exec 12), .other (.exec 12), .task 3 .pending]

/-- `C58_one_message`, `C58_loop_handles`: the first request was handled by the first `yield_once`. -/
example : ∃ c T, PRun none true c ∧ T ∈ c.ts ∧ T.customLoop ∧ Ev.recv 3 T.b (.one ⟨0, .valued 0⟩) ∈ c.s.w.log ∧
    ∃ U ∈ c.ts, U.lvl = .once ∧ U.ph = .done ∧ U.aborted = false ∧ U.hist = [(3, .one ⟨0, .valued 0⟩, false)] :=
  ⟨_, _, PRun.run .new (as := loopStart) rfl, List.mem_cons_self .., ⟨rfl, rfl⟩, by decide, _,
    List.mem_cons_of_mem _ (List.mem_cons_self ..), rfl, rfl, rfl, rfl⟩

/-- The exception in C51, C52, C56 and C58 is needed: a handler that awaits `yield_once` may wait for ever, and so does the request it
handles, although the actor runs, nobody was dropped and everything has come to rest. (`C48_at_rest` and the others apply: `settled`.) -/
example : ∃ c, PRun none true c ∧ c.settled ∧ (∀ T ∈ c.ts, T.cut = false) ∧ c.yields 1 ∧ (∃ T ∈ c.ts, T.customLoop) ∧
    c.s.unresolved 4 1 false ∧ c.s.w.dozes 4 ∧ .handled 0 7 ∈ c.s.w.log := by
  refine ⟨_, PRun.run .new (as := loopStart ++ loopSteps) rfl, settled_dec (by decide) (by decide), by decide, ?_,
    ⟨_, List.mem_cons_self .., rfl, rfl⟩, .inl ⟨.ret, _, rfl, rfl⟩, ⟨_, rfl⟩, by decide⟩
  refine ⟨_, List.mem_cons_of_mem _ (List.mem_cons_of_mem _ (List.mem_cons_self ..)), ⟨5, ⟨1, .valued 0⟩, rfl, rfl⟩, _,
    List.mem_cons_of_mem _ (List.mem_cons_of_mem _ (List.mem_cons_of_mem _ (List.mem_cons_self ..))), rfl, rfl, asleepD_sound (by decide)⟩

theorem AutosC.loops {A : Nat → Prop} {c c' c2 : PCfg} (h : AutosC A c c') (h2 : LoopsC A c' c2) : LoopsC A c c2 := by
  induction h with
  | refl => exact h2
  | step h1 hn _ ih => exact .step h1 hn (ih h2)

/-- A custom event loop has called `yield_once`; a request was made, its future not polled yet. -/
def serveStart : List PAct := [.spawn 1, .yieldOnce 0, .other (.call (.send 0))]
/-- The future is awaited and the request handled; the first `yield_once` returns. -/
def serveSteps : List PAct :=
  [.task 1 .next, .task 1 (.poll 5), .other (.exec 2), .other (.exec 2), .task 1 .pending, .other (.call (.pollSend 2 6)), .other (.exec 3),
   .other (.exec 3), .other (.exec 3), .other (.exec 3), .other (.exec 3), .task 1 (.poll 5), .other (.exec 4), .task 1 .ready,
   .task 1 .dispatch, .task 1 (.finish 7), .other (.exec 6), .other (.exec 6), .other (.exec 6), .task 1 .return]
/-- After the loop has called `yield_once` again: it waits, and the requester is given the answer. -/
def serveAgain : List PAct :=
  [.task 2 .next, .task 2 (.poll 5), .other (.exec 8), .other (.exec 8), .task 2 .pending, .other (.call (.pollSend 2 6)), .other (.exec 9)]

/-- `C58_answered`: a request is awaited and answered while the loop calls `yield_once` twice. -/
example : ∃ c c', PRun none true c ∧ c.s.unresolved 2 0 false ∧ LoopsC (· ∈ [2]) c c' ∧
    ((∀ T ∈ c'.ts, T.aborted = false) ∧ .lost 0 ∉ c'.s.w.log) ∧ (¬ ∃ c2, AutoC (· ∈ [2]) c' c2 ∧ NoDrop c' c2) ∧
    (∃ T ∈ c'.ts, T.customLoop ∧ ∃ U ∈ c'.ts, U.lvl = .once ∧ U.b = T.b ∧ U.asleep c'.s.w) ∧ .replyOk 2 0 7 ∈ c'.s.w.log := by
  refine ⟨_, _, PRun.run .new (as := serveStart) rfl, .inl ⟨.ret, _, rfl, rfl⟩,
    (autosC_sound [2] serveSteps rfl).loops (.again (k := 0) rfl ⟨rfl, rfl⟩ ?_ ((autosC_sound [2] serveAgain rfl).loops .refl)),
    by decide, ?_, ⟨⟨1, 0, .starting, [], [], false, .run⟩, by decide, ⟨rfl, rfl⟩,
      ⟨1, 0, .waiting 4, [4], [], false, .once⟩, by decide, rfl, rfl, asleepD_sound (by decide)⟩, by decide⟩
  · unfold PCfg.onTop; decide
  · refine C51_rest_is_final (closed := true) (cap := none)
      (PRun.run .new (as := serveStart ++ serveSteps ++ .yieldOnce 0 :: serveAgain) rfl) ⟨settled_dec (by decide) (by decide), fun f hf => ?_⟩
    simp at hf; subst hf
    exact trivial

/-- While `yield_once` runs the handler of a request, `stop_all` puts a notice in the loop's mailbox. -/
def toldStart : List PAct :=
  [.spawn 1, .yieldOnce 0, .other (.call (.send 0)), .other (.call (.pollSend 2 6)), .other (.exec 1), .other (.exec 1), .other (.exec 1),
   .other (.exec 1), .other (.exec 1), .task 1 .next, .task 1 (.poll 5), .other (.exec 3), .task 1 .ready, .task 1 .dispatch,
   .other (.call (.stopAll 3)), .other (.exec 5), .other (.exec 5)]
/-- The next `yield_once` returns `Break`, and the loop gives up its mailbox. -/
def toldSteps : List PAct :=
  [.task 1 (.finish 7), .other (.exec 6), .other (.exec 6), .other (.exec 6), .task 1 .return, .yieldOnce 0, .task 2 .next,
   .task 2 (.poll 5), .other (.exec 8), .task 2 .ready, .task 2 .notice, .other (.exec 9), .other (.exec 9), .task 2 .return]

/-- `C58_told`: the second `yield_once` has returned `Break` (and the loop has not given up its mailbox; a third `yield_once` waits). -/
example : ∃ c c' T, PRun none true c ∧ c.ts[0]? = some T ∧ T.customLoop ∧ ⟨1, .shutdown⟩ ∈ c.s.w.items T.b ∧ PSteps true c c' ∧ c'.settled ∧
    (∀ U ∈ c'.ts, U.aborted = false) ∧ ∃ U ∈ c'.ts, U.lvl = .once ∧ U.b = T.b ∧ U.ph = .done ∧ U.hist = [(4, .all ⟨1, .shutdown⟩, true)] := by
  refine ⟨_, _, _, PRun.run .new (as := toldStart) rfl, rfl, ⟨rfl, rfl⟩, by decide, psteps_of_run (as := toldSteps ++
    [.yieldOnce 0, .task 3 .next, .task 3 (.poll 5), .other (.exec 11), .other (.exec 11), .task 3 .pending]) rfl,
    settled_dec (by decide) (by decide), by decide,
    ⟨1, 0, .done, [4], [(4, .all ⟨1, .shutdown⟩, true)], false, .once⟩, by decide, rfl, rfl, rfl, rfl⟩

end Xtra
