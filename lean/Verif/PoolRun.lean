import Verif.Pool
/-! Executable schedules of a channel with tasks, for the concrete cases beside the theorems of C48 and C49. -/

set_option linter.unusedSimpArgs false

namespace Xtra

/-- What a task does next. -/
inductive TAct where
  | started | startFails | next | poll (wk : Nat) | pending | ready | dispatch | notice | finish (v : Nat) | loop | break | stopped | left
  | abortOuter | abortWaiting | abortHandling | aborted | return | futReady (wk : Nat) | giveUp | over
  deriving DecidableEq, Repr

/-- `TStep` as a function. -/
def tstep (s : Sys) (T : Task) : TAct → Option (Sys × Task)
  | .started => match T.ph with
    | .starting => some (s, { T with ph := .idle })
    | _ => none
  | .startFails => match T.ph, s.step (.call (.dropMailbox T.i)) with
    | .starting, some s' => some (s', { T with ph := .leaving s.th.length })
    | _, _ => none
  | .next => match T.ph, s.step (.call (.next T.i)) with
    | .idle, some s' => some (s', { T with ph := .waiting s.w.objs.length, futs := s.w.objs.length :: T.futs })
    | _, _ => none
  | .poll wk => match T.ph with
    | .waiting r => match s.step (.call (.pollRecv r wk)) with
      | some s' => some (s', { T with ph := .polling r s.th.length })
      | none => none
    | _ => none
  | .pending => match T.ph with
    | .polling r t => match s.th[t]?, s.w.objs[r]? with
      | some [], some (.recv _ _) => if T.lvl = .last then none else some (s, { T with ph := .waiting r })
      | _, _ => none
    | _ => none
  | .futReady wk => match T.ph with
    | .waiting r => match s.step (.call (.pollRecv r wk)) with
      | some s' => if T.lvl = .sel then some (s', { T with ph := .polling r s.th.length, lvl := .last }) else none
      | none => none
    | _ => none
  | .giveUp => match T.ph with
    | .polling r t => match s.th[t]?, s.w.objs[r]?, s.step (.call (.dropRecv r)) with
      | some [], some (.recv _ _), some s' =>
        if T.lvl = .last then some (s', { T with ph := .aborting r none s.th.length, lvl := .gave }) else none
      | _, _, _ => none
    | _ => none
  | .return => match T.ph with
    | .finishing r am _ brk t => match s.th[t]? with
      | some [] =>
        if (T.lvl = .sel ∧ brk = true) ∨ T.lvl = .last ∨ T.lvl = .once then some (s, { T with ph := .done, hist := (r, am, brk) :: T.hist }) else none
      | _ => none
    | _ => none
  | .over => match T.ph with
    | .aborting _ _ t => match s.th[t]? with
      | some [] => if T.lvl ≠ .run then some (s, { T with ph := .done }) else none
      | _ => none
    | _ => none
  | .ready => match T.ph with
    | .polling r t => match s.th[t]?, s.w.objs[r]? with
      | some [], some (.message _ am) => some (s, { T with ph := .got r am })
      | _, _ => none
    | _ => none
  | .dispatch => match T.ph with
    | .got r am => match am.isStop, s.step (.call (.dispatch r)) with
      | false, some s' => some (s', { T with ph := .handling r am })
      | _, _ => none
    | _ => none
  | .notice => match T.ph with
    | .got r am => match am.isStop, s.step (.call (.dispatch r)) with
      | true, some s' => some (s', { T with ph := .finishing r am 0 true s.th.length })
      | _, _ => none
    | _ => none
  | .finish v => match T.ph with
    | .handling r am => match s.w.objs[r]?, s.step (.call (.finish r v)) with
      | some (.dispatch _ _ running), some s' => some (s', { T with ph := .finishing r am v (!running) s.th.length })
      | _, _ => none
    | _ => none
  | .loop => match T.ph with
    | .finishing r am _ false t => match s.th[t]? with
      | some [] => if T.lvl = .run ∨ T.lvl = .sel then some (s, { T with ph := .idle, hist := (r, am, false) :: T.hist }) else none
      | _ => none
    | _ => none
  | .break => match T.ph with
    | .finishing r am _ true t => match s.th[t]? with
      | some [] => if T.lvl = .run then some (s, { T with ph := .stopping, hist := (r, am, true) :: T.hist }) else none
      | _ => none
    | _ => none
  | .stopped => match T.ph, s.step (.call (.dropMailbox T.i)) with
    | .stopping, some s' => some (s', { T with ph := .leaving s.th.length })
    | _, _ => none
  | .left => match T.ph with
    | .leaving t => match s.th[t]? with
      | some [] => some (s, { T with ph := .done })
      | _ => none
    | _ => none
  | .abortOuter => match T.ph, s.step (.call (.dropMailbox T.i)) with
    | .starting, some s' => some (s', { T with ph := .leaving s.th.length, aborted := true })
    | .stopping, some s' => some (s', { T with ph := .leaving s.th.length, aborted := true })
    | _, _ => none
  | .abortWaiting => match T.ph with
    | .waiting r => match s.step (.call (.dropRecv r)) with
      | some s' => some (s', { T with ph := .aborting r none s.th.length, aborted := true })
      | none => none
    | _ => none
  | .abortHandling => match T.ph with
    | .handling r am => match s.step (.call (.dropDispatch r)) with
      | some s' => some (s', { T with ph := .aborting r (some am) s.th.length, aborted := true })
      | none => none
    | _ => none
  | .aborted => match T.ph with
    | .aborting _ _ t => match s.th[t]?, s.step (.call (.dropMailbox T.i)) with
      | some [], some s' => if T.lvl = .run then some (s', { T with ph := .leaving s.th.length }) else none
      | _, _ => none
    | _ => none

theorem tstep_sound {s s' : Sys} {T T' : Task} {a : TAct} (h : tstep s T a = some (s', T')) : TStep s T s' T' := by
  cases a <;> simp only [tstep] at h
  case started => split at h <;> simp at h; obtain ⟨rfl, rfl⟩ := h; exact .started (by assumption)
  case startFails => split at h <;> simp at h; obtain ⟨rfl, rfl⟩ := h; exact .startFails (by assumption) (by assumption)
  case next => split at h <;> simp at h; obtain ⟨rfl, rfl⟩ := h; exact .next (by assumption) (by assumption)
  case poll => repeat' split at h
               all_goals simp at h
               obtain ⟨rfl, rfl⟩ := h; exact .poll (by assumption) (by assumption)
  case pending => repeat' split at h
                  all_goals simp at h
                  obtain ⟨rfl, rfl⟩ := h; exact .pending (by assumption) (by assumption) (by assumption) (by assumption)
  case ready => repeat' split at h
                all_goals simp at h
                obtain ⟨rfl, rfl⟩ := h; exact .ready (by assumption) (by assumption) (by assumption)
  case dispatch => repeat' split at h
                   all_goals simp at h
                   obtain ⟨rfl, rfl⟩ := h; exact .dispatch (by assumption) (by assumption) (by assumption)
  case notice => repeat' split at h
                 all_goals simp at h
                 obtain ⟨rfl, rfl⟩ := h; exact .notice (by assumption) (by assumption) (by assumption)
  case finish => repeat' split at h
                 all_goals simp at h
                 obtain ⟨rfl, rfl⟩ := h; exact .finish (by assumption) (by assumption) (by assumption)
  case loop => repeat' split at h
               all_goals simp at h
               obtain ⟨rfl, rfl⟩ := h; exact .loop (by assumption) (by assumption) (by assumption)
  case «break» => repeat' split at h
                  all_goals simp at h
                  obtain ⟨rfl, rfl⟩ := h; exact .break (by assumption) (by assumption) (by assumption)
  case stopped => split at h <;> simp at h; obtain ⟨rfl, rfl⟩ := h; exact .stopped (by assumption) (by assumption)
  case left => repeat' split at h
               all_goals simp at h
               obtain ⟨rfl, rfl⟩ := h; exact .left (by assumption) (by assumption)
  case abortOuter =>
    split at h <;> simp at h
    · obtain ⟨rfl, rfl⟩ := h; exact .abortOuter (.inl (by assumption)) (by assumption)
    · obtain ⟨rfl, rfl⟩ := h; exact .abortOuter (.inr (by assumption)) (by assumption)
  case abortWaiting => repeat' split at h
                       all_goals simp at h
                       obtain ⟨rfl, rfl⟩ := h; exact .abortWaiting (by assumption) (by assumption)
  case abortHandling => repeat' split at h
                        all_goals simp at h
                        obtain ⟨rfl, rfl⟩ := h; exact .abortHandling (by assumption) (by assumption)
  case aborted => repeat' split at h
                  all_goals simp at h
                  obtain ⟨rfl, rfl⟩ := h; exact .aborted (by assumption) (by assumption) (by assumption) (by assumption)
  case «return» => repeat' split at h
                   all_goals simp at h
                   obtain ⟨rfl, rfl⟩ := h; exact .return (by assumption) (by assumption) (by assumption)
  case futReady => repeat' split at h
                   all_goals simp at h
                   obtain ⟨rfl, rfl⟩ := h; exact .futReady (by assumption) (by assumption) (by assumption)
  case giveUp => repeat' split at h
                 all_goals simp at h
                 obtain ⟨rfl, rfl⟩ := h; exact .giveUp (by assumption) (by assumption) (by assumption) (by assumption) (by assumption)
  case over => repeat' split at h
               all_goals simp at h
               obtain ⟨rfl, rfl⟩ := h; exact .over (by assumption) (by assumption) (by assumption)

inductive PAct where
  | other (a : Act)
  | spawn (i : Nat)
  | nest (k : Nat)
  | yieldOnce (k : Nat)
  | task (k : Nat) (a : TAct)
  deriving DecidableEq, Repr

def Act.isNext : Act → Bool
  | .call (.next _) => true
  | _ => false

/-- `PStep true` as a function. -/
def PCfg.step (c : PCfg) : PAct → Option PCfg
  | .other a => match c.ts.all (fun T => !a.steals T) && !a.isNext, c.s.step a with
    | true, some s' => some { c with s := s' }
    | _, _ => none
  | .spawn i => match c.s.w.objs[i]?, c.ts.all (fun T => T.i != i) with
    | some (.mailbox b), true => some { c with ts := c.ts ++ [⟨i, b, .starting, [], [], false, .run⟩] }
    | _, _ => none
  | .nest k => match c.ts[k]? with
    | some T => match T.given, c.ts.all (fun U => !U.covers T) with
      | some i, true => some { c with ts := c.ts ++ [⟨i, T.b, .idle, [], [], false, .sel⟩] }
      | _, _ => none
    | none => none
  | .yieldOnce k => match c.ts[k]? with
    | some T => match T.given, c.ts.all (fun U => !U.covers T) with
      | some i, true => some { c with ts := c.ts ++ [⟨i, T.b, .idle, [], [], false, .once⟩] }
      | _, _ => none
    | none => none
  | .task k a => match c.ts[k]? with
    | some T => match c.ts.all (fun U => !U.covers T), tstep c.s T a with
      | true, some (s', T') => some ⟨s', c.ts.set k T'⟩
      | _, _ => none
    | none => none

theorem PCfg.step_sound {c c' : PCfg} {a : PAct} (h : c.step a = some c') : PStep true c c' := by
  cases a <;> simp only [PCfg.step] at h
  case other a =>
    split at h <;> simp at h
    subst h
    rename_i h1 h2
    simp at h1
    refine .other h1.1 (fun _ i hi => ?_) h2
    subst hi; simp [Act.isNext] at h1
  case spawn i =>
    split at h <;> simp at h
    subst h
    rename_i h1 h2
    simp at h2
    exact .spawn h1 h2
  case task k a =>
    repeat' split at h
    all_goals simp at h
    subst h
    rename_i h1 h2
    exact .task (by assumption) (by simpa [PCfg.onTop] using h1) (tstep_sound h2)
  case nest k =>
    repeat' split at h
    all_goals simp at h
    subst h
    rename_i h1 h2
    exact .nest (by assumption) (by simpa [PCfg.onTop] using h2) h1 (.inl rfl)
  case yieldOnce k =>
    repeat' split at h
    all_goals simp at h
    subst h
    rename_i h1 h2
    exact .nest (by assumption) (by simpa [PCfg.onTop] using h2) h1 (.inr rfl)

def PCfg.run (c : PCfg) : List PAct → Option PCfg
  | [] => some c
  | a :: as => match c.step a with
    | some c' => c'.run as
    | none => none

theorem PRun.run {cap : Option Nat} {c c' : PCfg} (h : PRun cap true c) {as : List PAct} (hr : c.run as = some c') : PRun cap true c' := by
  induction as generalizing c with
  | nil => simp [PCfg.run] at hr; subst hr; exact h
  | cons a as ih =>
    simp only [PCfg.run] at hr
    split at hr
    · rename_i h1; exact ih (.step h (PCfg.step_sound h1)) hr
    · simp at hr

/-- One actor is started, waits, is sent a request, handles it returning 7, and waits again; the requester gets the value. -/
def oneSched : List PAct :=
  [.spawn 1, .task 0 .started, .task 0 .next, .task 0 (.poll 5), .other (.exec 1), .other (.exec 1), .task 0 .pending,
   .other (.call (.send 0)), .other (.call (.pollSend 3 6)), .other (.exec 3), .other (.exec 3), .other (.exec 3), .other (.exec 3),
   .other (.exec 3),
   .task 0 (.poll 5), .other (.exec 4), .task 0 .ready, .task 0 .dispatch, .task 0 (.finish 7),
   .other (.exec 6), .other (.exec 6), .other (.exec 6), .task 0 .loop, .task 0 .next, .task 0 (.poll 5), .other (.exec 8),
   .other (.exec 8), .task 0 .pending, .other (.call (.pollSend 3 6)), .other (.exec 9)]

/-- Two actors on clones of a mailbox; a request arrives, the first one handles it. -/
def twoSched : List PAct :=
  [.other (.call (.cloneMailbox 1)), .other (.exec 0), .spawn 1, .spawn 2, .task 0 .started, .task 1 .started,
   .task 0 .next, .task 1 .next, .task 0 (.poll 5), .other (.exec 3), .other (.exec 3), .task 0 .pending,
   .task 1 (.poll 6), .other (.exec 4), .other (.exec 4), .task 1 .pending,
   .other (.call (.send 0)), .other (.call (.pollSend 5 7)), .other (.exec 6), .other (.exec 6), .other (.exec 6), .other (.exec 6),
   .other (.exec 6), .task 0 (.poll 5), .other (.exec 7), .task 0 .ready, .task 0 .dispatch]

/-- It is dropped while the handler runs; the requester polls. -/
def abortSched : List PAct :=
  twoSched ++ [.task 0 .abortHandling, .other (.exec 9), .other (.exec 9), .other (.exec 9), .task 0 .aborted, .other (.exec 10),
    .other (.exec 10), .task 0 .left, .other (.call (.pollSend 5 7)), .other (.exec 11)]

/-- Its handler calls `stop_self` and returns 7; `run` returns. -/
def stopSched : List PAct :=
  twoSched ++ [.other (.call (.stopSelf 3)), .task 0 (.finish 7), .other (.exec 10), .other (.exec 10), .other (.exec 10), .task 0 .break,
    .task 0 .stopped, .other (.exec 11), .other (.exec 11), .task 0 .left]

/-- The handler of a request calls `select` (or `join`); its event loop waits, a second request is made. -/
def nestSched : List PAct :=
  oneSched.take 18 ++ [.nest 0, .task 1 .next, .task 1 (.poll 5), .other (.exec 7), .other (.exec 7), .task 1 .pending,
    .other (.call (.send 0)), .other (.call (.pollSend 5 8))]

/-- The second request is delivered, and then the future given to `select` completes: the message is handled, `select` returns, the
first handler finishes, the loop of `run` goes on. -/
def lastSched : List PAct :=
  nestSched ++ [.other (.exec 9), .other (.exec 9), .other (.exec 9), .other (.exec 9), .other (.exec 9), .task 1 (.futReady 5),
    .other (.exec 10), .task 1 .ready, .task 1 .dispatch, .task 1 (.finish 8), .other (.exec 12), .other (.exec 12), .other (.exec 12),
    .task 1 .return, .task 0 (.finish 7), .other (.exec 13), .other (.exec 13), .other (.exec 13), .task 0 .loop]

/-- The future given to `select` completes, `select` polls its receive future for the last time (nothing there) and drops it; before
the drop has taken the lock the sender has handed its message to that receive: between the drop's look into the receive's cell and its
deregistration (C03). `select` returns; the requester polls. -/
def loseSched : List PAct :=
  nestSched ++ [.task 1 (.futReady 5), .other (.exec 10), .task 1 .giveUp, .other (.exec 11), .other (.exec 9), .other (.exec 9),
    .other (.exec 9), .other (.exec 9), .other (.exec 9), .other (.exec 11), .other (.exec 11), .other (.exec 11), .task 1 .over,
    .other (.call (.pollSend 5 8)), .other (.exec 12)]

end Xtra
