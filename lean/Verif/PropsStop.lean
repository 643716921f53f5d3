import Verif.PropsDrain
/-! # C16: `stop_all` -/

set_option linter.unusedSimpArgs false

namespace Xtra

theorem sendBroadcast_mem {w : World} (o : BqsOk w) {m n : Msg} {b : Nat} (h : n ∈ w.items b) :
    n ∈ (w.sendBroadcast m).items b := by
  rw [sendBroadcast_items w m o.nodup]; split
  · exact (Heap.push_perm Msg.le (w.items b) m).mem_iff.mpr (by simp [h])
  · exact h

theorem sendBroadcast_new {w : World} (o : BqsOk w) (k : BAll w) {m : Msg} {b : Nat} (ha : w.alive b = true) (hr : w.rcv ≠ 0) :
    m ∈ (w.sendBroadcast m).items b := by
  have hb : b ∈ w.bqs := by rcases k b ha with h | h; exact h; exact absurd h hr
  rw [sendBroadcast_items w m o.nodup, if_pos ⟨hb, ha⟩]
  exact (Heap.push_perm Msg.le (w.items b) m).mem_iff.mpr (by simp)

theorem popBroadcast_mem {w w' : World} {b b0 : Nat} {m n : Msg} (r : RegWs w.ws w.wOne w.wAll) (o : BqsOk w)
    (hp : w.popBroadcast b0 = some (m, w')) (h : n ∈ w.items b) : n ∈ w'.items b ∨ (b = b0 ∧ n = m) := by
  obtain ⟨q, hq, hc⟩ := popBroadcast_cases r.all hp
  have hne := pop_ne hq
  have base : n ∈ (w.afterPop b0 q).items b ∨ (b = b0 ∧ n = m) := by
    rw [afterPop_items hne]
    by_cases hb : b = b0
    · subst hb
      rw [if_pos rfl]
      have := (Heap.pop_perm hq).mem_iff.mp h
      simp at this
      rcases this with h | h
      · exact .inr ⟨rfl, h⟩
      · exact .inl h
    · rw [if_neg hb]; exact .inl h
  rcases base with h | h
  · left
    obtain ⟨-, rfl⟩ | ⟨-, hg, rfl⟩ | ⟨-, h', wk', m', q', t', rfl⟩ := hc
    · exact h
    · exact h
    · exact sendBroadcast_mem ((o.congr (w' := w.afterPop b0 q) (by simp) (afterPop_bqlen w b0 q)).congr rfl rfl) h
  · exact .inr h

theorem execR_items_mem {w w' : World} {mc : Micro} {ms : List Micro} (h : ExecR w mc w' ms)
    (r : RegWs w.ws w.wOne w.wAll) (o : BqsOk w) {b : Nat} {n : Msg} (hn : n ∈ w.items b) (ha : w'.alive b = true) :
    n ∈ w'.items b ∨ ∃ r, w'.log.head? = some (.recv r b (.all n)) := by
  cases h
  case recv_all r' b' wk m w1 hp _ _ =>
    rcases popBroadcast_mem r o hp hn with h | ⟨rfl, rfl⟩
    · left; rw [items_congr (w := w1) (by simp)]; exact h
    · right; exact ⟨_, by simp [World.yieldMsg, World.ev]; rfl⟩
  case recvBcast_some r' b' c wk m w1 hp =>
    rcases popBroadcast_mem r o hp hn with h | ⟨rfl, rfl⟩
    · left; rw [items_congr (w := w1) (by simp)]; exact h
    · right; exact ⟨_, by simp [World.yieldMsg, World.ev]; rfl⟩
  case recv_one hp _ _ => left; rw [items_congr (w := w) (by simp [World.popUnicast_bq hp])]; exact hn
  case critAll_sent => exact .inl (sendBroadcast_mem (o.congr rfl rfl) hn)
  case bcastShutdown => exact .inl (sendBroadcast_mem (o.congr rfl rfl) hn)
  case dropBq b0 =>
    left
    rw [alive_iff, decBq_refs] at ha
    rw [decBq_items]
    by_cases hb : b = b0
    · subst hb; simp at ha; rw [if_neg (by omega)]; exact hn
    · simp [hb]; exact hn
  case newBq ob => left; rw [newBq_items]; exact hn
  all_goals (left; rw [items_congr (w := w) (by simp)]; exact hn)

/-- **C16.** A broadcast in a mailbox stays there, whatever happens, until the mailbox is dropped or a receive future on this
mailbox yields it. -/
theorem C16_notice_stays {cap : Option Nat} {s s' : Sys} {a : Act} {b : Nat} {n : Msg} (h : Reachable cap s)
    (hs : s.step a = some s') (hn : n ∈ s.w.items b) (hl : s'.w.mailboxLive b) :
    n ∈ s'.w.items b ∨ ∃ r, s'.w.log.head? = some (.recv r b (.all n)) := by
  have ha := mailboxLive_alive (.step h hs) hl
  cases a with
  | call c =>
    simp only [Sys.step] at hs
    split at hs <;> simp at hs
    rename_i w' ms hc
    subst hs
    left; show n ∈ w'.items b
    rw [(callR_bqs (call_rel hc)).2.2 b]; exact hn
  | exec t =>
    simp only [Sys.step] at hs
    split at hs <;> simp at hs
    rename_i mc rest ht
    subst hs
    exact execR_items_mem (exec_rel s.w mc) (regWs_reachable h) (bqsOk_reachable h) hn ha

theorem uq_not_stop {cap : Option Nat} {s : Sys} (h : Reachable cap s) {m : Msg} (hm : m ∈ s.w.uq) (hp : Prio.shutdown ≤ m.prio) :
    False := by
  rw [(C19_priority_as_set h).1 m hm] at hp
  exact absurd hp (by simp [LE.le, Prio.ble])

theorem stop_of_le {p : Prio} (h : Prio.shutdown ≤ p) : p = .shutdown := by
  cases p with
  | shutdown => rfl
  | valued v => exact absurd h (by simp [LE.le, Prio.ble])

theorem lateLog_recv {w : World} {m : Msg} {r b : Nat} {am : AMsg} (h : Ev.recv r b am ∈ w.lateLog m) : Ev.recv r b am ∈ w.log := by
  unfold World.lateLog at h; split at h
  · simpa using h
  · exact h

/-- **C16.** While a `stop_all` notice (any broadcast of shutdown priority) is in mailbox `b`, every receive future on
`b` that completes, in any interleaving, yields a shutdown notice, unless it yields a unicast message that had been
handed to it directly, i.e. does not take from the queues. -/
theorem C16_next_is_notice {cap : Option Nat} {s s' : Sys} {a : Act} {b r : Nat} {n : Msg} {am : AMsg} (h : Reachable cap s)
    (hs : s.step a = some s') (hn : n ∈ s.w.items b) (hp : n.prio = .shutdown)
    (hy : .recv r b am ∈ s'.w.log) (ho : .recv r b am ∉ s.w.log) :
    am.isStop = true ∨ ∃ m t c wk rest x, am = .one m ∧ a = .exec t ∧ s.th[t]? = some (.recvPoll r b c wk :: rest) ∧
      s.w.cells[c]? = some (.full (.newMessage m) x) := by
  cases a with
  | call c =>
    simp only [Sys.step] at hs
    split at hs <;> simp at hs
    rename_i w' ms hc
    subst hs
    have hc := call_rel hc
    exfalso; apply ho
    cases hc <;> simpa [World.ev, World.addObj, World.setObj] using hy
  | exec t =>
    simp only [Sys.step] at hs
    split at hs <;> simp at hs
    rename_i mc rest ht
    subst hs
    have he := exec_rel s.w mc
    simp only at hy
    generalize (exec s.w mc).1 = w' at *
    generalize (exec s.w mc).2 = ms at *
    have hb := bInv_reachable h
    have hrg := regWs_reachable h
    cases he
    case recv_all r' b' wk m w1 hpp h1 h2 =>
      simp only [World.yieldMsg, World.ev] at hy
      rcases List.mem_cons.mp hy with hy | hy
      · simp at hy; obtain ⟨rfl, rfl, rfl⟩ := hy
        left
        have := (head_max (hb.heap b) h1).2 n hn
        rw [hp] at this
        simp [AMsg.isStop, stop_of_le this]
      · exfalso; apply ho
        rcases popBroadcast_log hrg hpp with h' | ⟨m', ts, h'⟩ <;> rw [show _ = _ from h'] at hy
        · exact hy
        · simpa using hy
    case recvBcast_some r' b' c wk m w1 hpp =>
      simp only [World.yieldMsg, World.ev] at hy
      rcases List.mem_cons.mp hy with hy | hy
      · simp at hy; obtain ⟨rfl, rfl, rfl⟩ := hy
        left
        obtain ⟨q, hq, -⟩ := popBroadcast_cases hrg.all hpp
        have := (Heap.pop_max Msg.total (hb.heap b) hq).2 n hn
        have : n.prio ≤ m.prio := this
        rw [hp] at this
        simp [AMsg.isStop, stop_of_le this]
      · exfalso; apply ho
        rcases popBroadcast_log hrg hpp with h' | ⟨m', ts, h'⟩ <;> rw [show _ = _ from h'] at hy
        · exact hy
        · simpa using hy
    case recv_one r' b' wk m w1 hpp h1 h2 =>
      exfalso
      simp only [World.yieldMsg, World.ev] at hy
      rcases List.mem_cons.mp hy with hy | hy
      · simp at hy; obtain ⟨rfl, rfl, rfl⟩ := hy
        have hm := (head_max (uInv_reachable h).heap h1).1
        cases hq : (s.w.items b).head? with
        | none => rw [List.head?_eq_none_iff] at hq; rw [hq] at hn; simp at hn
        | some u =>
          have h3 := (head_max (hb.heap b) hq).2 n hn
          have h4 := prio_le_trans h3 (h2 u hq)
          rw [hp] at h4
          exact uq_not_stop h hm h4
      · rw [show _ = _ from World.popUnicast_log hpp] at hy; exact ho hy
    case recv_shutdown h1 h2 h3 =>
      simp only [World.yieldMsg, World.ev] at hy
      rcases List.mem_cons.mp hy with hy | hy
      · simp at hy; obtain ⟨rfl, rfl, rfl⟩ := hy
        left; rfl
      · exact absurd hy ho
    case recvPoll_one hc =>
      simp only [World.yieldMsg, World.ev] at hy
      rcases List.mem_cons.mp hy with hy | hy
      · simp at hy; obtain ⟨rfl, rfl, rfl⟩ := hy
        right
        exact ⟨_, _, _, _, _, _, rfl, rfl, ht, hc⟩
      · exact absurd hy ho
    case recvPoll_shutdown hc =>
      simp only [World.yieldMsg, World.ev] at hy
      rcases List.mem_cons.mp hy with hy | hy
      · simp at hy; obtain ⟨rfl, rfl, rfl⟩ := hy
        left; rfl
      · exact absurd hy ho
    case shutTx =>
      exfalso
      rcases shutTx_mem hy with h | ⟨j, h⟩
      · exact ho h
      · simp at h
    all_goals
      exfalso; apply ho
      first
      | exact hy
      | (simp at hy; exact hy)
      | (simp at hy; exact lateLog_recv hy)
      | (simp [World.sendBroadcast] at hy; exact hy)
      | (simp [World.sendBroadcast] at hy; exact lateLog_recv hy)

/-- **C16**, without interference: a receive future on such a mailbox completes in its next poll with a shutdown
notice (unless a unicast message had been handed to it before). -/
theorem C16_next_takes_notice {cap : Option Nat} {w w' : World} {r b wk : Nat} {st : Recv} {n : Msg} (hq : Quiet cap w)
    (hr : w.objs[r]? = some (.recv b st)) (hn : n ∈ w.items b) (hp : n.prio = .shutdown)
    (hh : ∀ c m x, st = .waiting c → w.cells[c]? ≠ some (.full (.newMessage m) x))
    (hd : Does w (.pollRecv r wk) w') : ∃ am, am.isStop = true ∧ w'.yielded r b am := by
  obtain ⟨w1, ms, hc, hm⟩ := hd
  have hc0 := hc
  obtain ⟨th, hreach, -⟩ := id hq
  cases st with
  | new =>
    simp only [Xtra.call, hr] at hc
    simp at hc; obtain ⟨rfl, rfl⟩ := hc
    rcases runs_recvTry (hq.call hc0) hm with ⟨m, h1, h2, h3, h4⟩ | ⟨m, h1, h2, h3, h4⟩ | ⟨h1, h2, h3, h4⟩ | ⟨h1, h2, h3, h4⟩
    · have := h3 n hn; rw [hp] at this
      exact (uq_not_stop hreach h1 this).elim
    · have := h2 n hn; rw [hp] at this
      exact ⟨_, by simp [AMsg.isStop, stop_of_le this], h4⟩
    · exact ⟨_, rfl, h4⟩
    · have h2' : w.items b = [] := h2
      rw [h2'] at hn; simp at hn
  | waiting c =>
    simp only [Xtra.call, hr] at hc
    simp at hc; obtain ⟨rfl, rfl⟩ := hc
    rcases runs_recvPoll (hq.call hc0) hm with ⟨x, h1, h2⟩ | ⟨m, x, h1, h2⟩ | ⟨x, h1, h2⟩ | ⟨x, h1, h2⟩
    · rw [(hq.waiting hr h1).2.2.1] at hn; simp at hn
    · exact absurd h1 (hh c m x rfl)
    · exact ⟨_, rfl, h2⟩
    · rcases h2 with ⟨m, h3, h3', h4⟩ | ⟨h3, -⟩
      · have := h3' n hn; rw [hp] at this
        exact ⟨_, by simp [AMsg.isStop, stop_of_le this], h4⟩
      · have h2' : w.items b = [] := h3
        rw [h2'] at hn; simp at hn

/-- **C16.** The critical section of `stop_all`, in any interleaving: a new message of shutdown priority is put into every
live mailbox, whatever the capacity and whatever is queued; nothing already in a mailbox is removed and the unicast
queue is unchanged. -/
theorem C16_notice_everywhere {cap : Option Nat} {s s' : Sys} {t : Nat} {rest : List Micro} (h : Reachable cap s)
    (ht : s.th[t]? = some (.bcastShutdown :: rest)) (hs : s.step (.exec t) = some s') :
    ∃ n : Msg, n.prio = .shutdown ∧ n.id = s.w.resp.length ∧ s'.w.uq = s.w.uq ∧
      ∀ b, s.w.mailboxLive b → n ∈ s'.w.items b ∧ ∀ m ∈ s.w.items b, m ∈ s'.w.items b := by
  simp only [Sys.step, ht] at hs
  simp at hs; subst hs
  have ho := bqsOk_reachable h
  have hk := bAll_reachable h
  refine ⟨⟨s.w.resp.length, .shutdown⟩, rfl, rfl, rfl, fun b hb => ⟨?_, fun m hm => ?_⟩⟩
  · exact sendBroadcast_new (w := { s.w with resp := s.w.resp ++ [Resp.none] }) (ho.congr rfl rfl)
      (hk.congr (fun _ h => h) (fun _ h _ _ => h) (fun h => h)) (mailboxLive_alive h hb) (mailboxLive_rcv h hb)
  · exact sendBroadcast_mem (w := { s.w with resp := s.w.resp ++ [Resp.none] }) (ho.congr rfl rfl) hm

/-- **C16.** The whole call `Context::stop_all` in a running handler. With a strong address in existence it puts a new
shutdown notice into every live mailbox; every receive future that was waiting idly yields a shutdown notice in its next
poll. Without a strong address it does nothing. -/
theorem C16_stop_all {cap : Option Nat} {w w' : World} {o b0 : Nat} {am : AMsg} {run : Bool} (hq : Quiet cap w)
    (ho : w.objs[o]? = some (.dispatch b0 am run)) (hd : Does w (.stopAll o) w') :
    (0 < w.strongRefs → ∃ n : Msg, n.prio = .shutdown ∧ n.id = w.resp.length ∧ w'.uq = w.uq ∧ w'.objs = w.objs ∧
      (∀ b, w.mailboxLive b → n ∈ w'.items b ∧ ∀ m ∈ w.items b, m ∈ w'.items b) ∧
      (∀ r b wk w'', w.idleReceiver r b → Does w' (.pollRecv r wk) w'' → ∃ am, am.isStop = true ∧ w''.yielded r b am)) ∧
    (w.strongRefs = 0 → w' = w) := by
  have hsc := (C14_counts_exact_quiet hq).1
  have hq' := hq.does hd
  obtain ⟨w1, ms, hc, hm⟩ := hd
  have hc0 := hc
  obtain ⟨th, hreach, hth⟩ := id hq
  simp only [Xtra.call, ho] at hc
  refine ⟨fun h0 => ?_, fun h0 => ?_⟩
  · rw [if_neg (by omega)] at hc
    simp at hc; obtain ⟨rfl, rfl⟩ := hc
    have hexec : ∀ {w w' : World} {m : Micro} {ms : List Micro}, Runs w (m :: ms) w' → Runs (exec w m).1 ((exec w m).2 ++ ms) w' := by
      intro _ _ _ _ h; cases h; assumption
    have hr1 := hexec hm
    have he : w' = { ({ w with sc := w.sc + 1, resp := w.resp ++ [Resp.none] } : World).sendBroadcast ⟨w.resp.length, .shutdown⟩
        with sc := w.sc } := by
      have hr2 := hexec (by simpa [exec] using hr1)
      simp [exec, Rc.isStrong] at hr2
      rw [if_neg (by omega)] at hr2
      exact runs_nil hr2
    have hbo := bqsOk_reachable hreach
    have hbk := bAll_reachable hreach
    have hall : ∀ b, w.mailboxLive b → (⟨w.resp.length, .shutdown⟩ : Msg) ∈ w'.items b ∧ ∀ m ∈ w.items b, m ∈ w'.items b := by
      intro b hb
      have hI : w'.items b = (({ w with sc := w.sc + 1, resp := w.resp ++ [Resp.none] } : World).sendBroadcast
          ⟨w.resp.length, .shutdown⟩).items b := by rw [he]; rfl
      rw [hI]
      refine ⟨?_, fun m hm => ?_⟩
      · exact sendBroadcast_new (hbo.congr rfl rfl) (hbk.congr (fun _ h => h) (fun _ h _ _ => h) (fun h => h))
          (mailboxLive_alive hreach hb) (mailboxLive_rcv hreach hb)
      · exact sendBroadcast_mem (w := { w with sc := w.sc + 1, resp := w.resp ++ [Resp.none] }) (hbo.congr rfl rfl) hm
    have hobjs : w'.objs = w.objs := by rw [he]; simp [World.sendBroadcast]
    refine ⟨⟨w.resp.length, .shutdown⟩, rfl, rfl, by rw [he]; rfl, hobjs, hall, ?_⟩
    rintro r b wk w'' ⟨c, x, h1, h2⟩ hp
    have hl : w.mailboxLive b := ⟨_, List.mem_of_getElem? h1, by simp [Obj.holdsMailbox]⟩
    refine C16_next_takes_notice (st := .waiting c) hq' (by rw [hobjs]; exact h1) (hall b hl).1 rfl ?_ hp
    intro c' m x' hcc hcell
    simp at hcc; subst hcc
    have hcl : w'.cells = w.wRx.foldl (fun cs c => notifyCell cs c .newBroadcast) w.cells := by rw [he]; rfl
    rw [hcl] at hcell
    have key : ∀ (l : List Nat) (cs : List RxCell), (∀ m x, cs[c]? ≠ some (.full (.newMessage m) x)) →
        ∀ m x, (l.foldl (fun cs c => notifyCell cs c .newBroadcast) cs)[c]? ≠ some (.full (.newMessage m) x) := by
      intro l
      induction l with
      | nil => intro cs h; exact h
      | cons a l ih =>
        intro cs h
        rw [List.foldl_cons]
        apply ih
        intro m x
        unfold notifyCell
        split
        · by_cases hac : a = c
          · subst hac; rename_i hh; simp [List.getElem?_set, (List.getElem?_eq_some_iff.mp hh).1]
          · rw [List.getElem?_set_ne hac]; exact h m x
        · exact h m x
    exact key _ _ (fun m x => by rw [h2]; simp) m x' hcell
  · rw [if_pos (by omega)] at hc
    simp at hc; obtain ⟨rfl, rfl⟩ := hc
    exact runs_nil hm

/-! ## C17: `stop_self` -/

theorem exec_keeps_obj {cap : Option Nat} {s s' : Sys} {t f : Nat} {o : Obj} (h : Reachable cap s)
    (hs : s.step (.exec t) = some s') (ho : s.w.objs[f]? = some o) (hb : o ≠ .busy) : s'.w.objs[f]? = some o := by
  simp only [Sys.step] at hs
  split at hs <;> simp at hs
  rename_i mc rest ht
  subst hs
  have hwf := wf_reachable h ht
  have he := exec_rel s.w mc
  show (exec s.w mc).1.objs[f]? = some o
  generalize (exec s.w mc).1 = w' at *
  generalize (exec s.w mc).2 = ms at *
  have hne : ∀ {g : Nat} {y : Obj}, s.w.objs[g]? = some .busy → (s.w.objs.set g y)[f]? = some o := by
    intro g y hg
    have : g ≠ f := by rintro rfl; rw [ho] at hg; simp at hg; exact hb hg
    rw [List.getElem?_set_ne this]; exact ho
  cases he
  case recv_all hp _ _ => simp [World.popBroadcast_objs hp]; exact hne hwf
  case recv_one hp _ _ => simp [World.popUnicast_objs hp]; exact hne hwf
  case recvBcast_some hp => simp [World.popBroadcast_objs hp]; exact hne hwf.1
  all_goals first
    | exact ho
    | (simp; exact ho)
    | (simp [World.setObj]; exact hne hwf)
    | (simp [World.setObj]; exact hne hwf.1)

/-- What one step can do to a received message, a running handler, or a finished one. -/
theorem dispatch_step {cap : Option Nat} {s s' : Sys} {a : Act} {o : Nat} {x : Obj} (h : Reachable cap s)
    (hs : s.step a = some s') (ho : s.w.objs[o]? = some x) :
    (x = .gone → s'.w.objs[o]? = some .gone) ∧
    (∀ b am, x = .message b am → a ≠ .call (.stopSelf o) ∧ (s'.w.objs[o]? = some (.message b am) ∨
      s'.w.objs[o]? = some (.dispatch b am true) ∨ s'.w.objs[o]? = some .gone)) ∧
    (∀ b am run, x = .dispatch b am run → s'.w.objs[o]? = some .gone ∨
      (a = .call (.stopSelf o) ∧ s'.w.objs[o]? = some (.dispatch b am false)) ∨
      (a ≠ .call (.stopSelf o) ∧ s'.w.objs[o]? = some (.dispatch b am run))) := by
  cases a with
  | exec t =>
    have k : x ≠ .busy → s'.w.objs[o]? = some x := exec_keeps_obj h hs ho
    refine ⟨fun hx => ?_, fun b am hx => ⟨by simp, .inl ?_⟩, fun b am run hx => .inr (.inr ⟨by simp, ?_⟩)⟩ <;>
      (subst hx; exact k (by simp))
  | call c =>
    simp only [Sys.step] at hs
    split at hs <;> simp at hs
    rename_i w' ms hc
    subst hs
    have hc := call_rel hc
    have hl : o < s.w.objs.length := (List.getElem?_eq_some_iff.mp ho).1
    have happ : ∀ y : Obj, (s.w.objs ++ [y])[o]? = some x := fun y => by rw [List.getElem?_append_left hl]; exact ho
    have hne : ∀ {g : Nat} {y z : Obj}, s.w.objs[g]? = some y → y ≠ x → (s.w.objs.set g z)[o]? = some x := by
      intro g y z hg hy
      have : g ≠ o := by rintro rfl; rw [ho] at hg; simp at hg; exact hy hg.symm
      rw [List.getElem?_set_ne this]; exact ho
    refine ⟨fun hx => ?_, fun b am hx => ?_, fun b am run hx => ?_⟩ <;> subst hx
    · cases hc <;> first
        | exact ho
        | (simp; exact ho)
        | exact happ _
        | (simp [World.addObj]; exact happ _)
        | exact hne (by assumption) (by simp)
    · cases hc
      case dropMessage o' b' am' h' =>
        refine ⟨by simp, ?_⟩
        by_cases he : o' = o
        · subst he; right; right; simp [World.setObj, hl]
        · left; simp [World.setObj, List.getElem?_set_ne he, ho]
      case dispatch_stop o' b' am' h' _ =>
        refine ⟨by simp, ?_⟩
        by_cases he : o' = o
        · subst he; right; right; simp [World.setObj, World.ev, hl]
        · left; simp [World.setObj, World.ev, List.getElem?_set_ne he, ho]
      case dispatch_run o' b' am' h' _ _ =>
        refine ⟨by simp, ?_⟩
        by_cases he : o' = o
        · subst he; rw [ho] at h'; simp at h'; obtain ⟨rfl, rfl⟩ := h'
          right; left; simp [World.setObj, hl]
        · left; simp [World.setObj, List.getElem?_set_ne he, ho]
      case stopSelf o' b' am' rn h' =>
        have he : o' ≠ o := by rintro rfl; rw [ho] at h'; simp at h'
        exact ⟨by simp [he], .inl (by simp [World.setObj, List.getElem?_set_ne he, ho])⟩
      all_goals first
        | exact ⟨by simp, .inl ho⟩
        | (refine ⟨by simp, .inl ?_⟩; simp; exact ho)
        | exact ⟨by simp, .inl (happ _)⟩
        | (refine ⟨by simp, .inl ?_⟩; simp [World.addObj]; exact happ _)
        | exact ⟨by simp, .inl (hne (by assumption) (by simp))⟩
    · cases hc
      case finish o' r b' am' rn h' =>
        by_cases he : o' = o
        · subst he; left; simp [World.setObj, hl]
        · right; right; simp [World.setObj, List.getElem?_set_ne he, ho]
      case dropDispatch o' b' am' rn h' =>
        by_cases he : o' = o
        · subst he; left; simp [World.setObj, hl]
        · right; right; simp [World.setObj, List.getElem?_set_ne he, ho]
      case stopSelf o' b' am' rn h' =>
        by_cases he : o' = o
        · subst he; rw [ho] at h'; simp at h'; obtain ⟨rfl, rfl, rfl⟩ := h'
          right; left; simp [World.setObj, hl]
        · right; right; simp [World.setObj, List.getElem?_set_ne he, ho, he]
      all_goals first
        | exact .inr (.inr ⟨by simp, ho⟩)
        | (refine .inr (.inr ⟨by simp, ?_⟩); simp; exact ho)
        | exact .inr (.inr ⟨by simp, happ _⟩)
        | (refine .inr (.inr ⟨by simp, ?_⟩); simp [World.addObj]; exact happ _)
        | exact .inr (.inr ⟨by simp, hne (by assumption) (by simp)⟩)

theorem gone_forever {cap : Option Nat} {o : Nat} (as : List Act) : ∀ {s s' : Sys}, Reachable cap s → s.run as = some s' →
    s.w.objs[o]? = some .gone → s'.w.objs[o]? = some .gone := by
  induction as with
  | nil => intro s s' _ hr h; simp [Sys.run] at hr; subst hr; exact h
  | cons a as ih =>
    intro s s' hs hr h
    simp only [Sys.run] at hr
    split at hr
    · rename_i s1 h1; exact ih (.step hs h1) hr ((dispatch_step hs h1 h).1 rfl)
    · simp at hr

theorem running_run {cap : Option Nat} {o b : Nat} {am : AMsg} (as : List Act) : ∀ {s s' : Sys} {run : Bool}, Reachable cap s →
    s.run as = some s' → s.w.objs[o]? = some (.dispatch b am run) → s'.w.objs[o]? = some .gone ∨
    ∃ run', s'.w.objs[o]? = some (.dispatch b am run') ∧ (run' = false ↔ run = false ∨ .call (.stopSelf o) ∈ as) := by
  induction as with
  | nil => intro s s' run _ hr h; simp [Sys.run] at hr; subst hr; exact .inr ⟨run, h, by simp⟩
  | cons a as ih =>
    intro s s' run hs hr h
    simp only [Sys.run] at hr
    split at hr
    · rename_i s1 h1
      rcases (dispatch_step hs h1 h).2.2 b am run rfl with h2 | ⟨rfl, h2⟩ | ⟨hne, h2⟩
      · exact .inl (gone_forever as (.step hs h1) hr h2)
      · rcases ih (.step hs h1) hr h2 with h3 | ⟨r, h3, h4⟩
        · exact .inl h3
        · exact .inr ⟨r, h3, by simp [h4]⟩
      · rcases ih (.step hs h1) hr h2 with h3 | ⟨r, h3, h4⟩
        · exact .inl h3
        · refine .inr ⟨r, h3, ?_⟩
          rw [h4]
          have : (Act.call (.stopSelf o) ∈ a :: as) ↔ Act.call (.stopSelf o) ∈ as := by
            simp [hne.symm]
          rw [this]
    · simp at hr

theorem message_run {cap : Option Nat} {o b : Nat} {am : AMsg} (as : List Act) : ∀ {s s' : Sys}, Reachable cap s →
    s.run as = some s' → s.w.objs[o]? = some (.message b am) → s'.w.objs[o]? = some .gone ∨
    s'.w.objs[o]? = some (.message b am) ∨
    ∃ run, s'.w.objs[o]? = some (.dispatch b am run) ∧ (run = false ↔ .call (.stopSelf o) ∈ as) := by
  induction as with
  | nil => intro s s' _ hr h; simp [Sys.run] at hr; subst hr; exact .inr (.inl h)
  | cons a as ih =>
    intro s s' hs hr h
    simp only [Sys.run] at hr
    split at hr
    · rename_i s1 h1
      obtain ⟨hne, h2⟩ := (dispatch_step hs h1 h).2.1 b am rfl
      have hmem : (Act.call (.stopSelf o) ∈ a :: as) ↔ Act.call (.stopSelf o) ∈ as := by simp [hne.symm]
      rcases h2 with h2 | h2 | h2
      · rw [hmem]; exact ih (.step hs h1) hr h2
      · rcases running_run as (.step hs h1) hr h2 with h3 | ⟨r, h3, h4⟩
        · exact .inl h3
        · exact .inr (.inr ⟨r, h3, by rw [h4, hmem]; simp⟩)
      · exact .inl (gone_forever as (.step hs h1) hr h2)
    · simp at hr

/-- **C17.** Object `o` is a received message at some moment; later, after any schedule `as` whatever (including other
calls, other threads), its handler is running, and now it completes. Then the last thing that happens is that the dispatch
returns its control flow, and this is `Break` exactly if `stop_self` was called in this handler at some point of `as`. -/
theorem C17_break_iff_stop_self {cap : Option Nat} {s : Sys} {as : List Act} {w w' : World} {th : List (List Micro)}
    {o b b' r : Nat} {am am' : AMsg} {run : Bool} (h : Reachable cap s) (h0 : s.w.objs[o]? = some (.message b am))
    (hr : s.run as = some ⟨w, th⟩) (ho : w.objs[o]? = some (.dispatch b' am' run)) (hd : Does w (.finish o r) w') :
    ∃ brk, w'.log.head? = some (.flow b am brk) ∧ (brk = true ↔ .call (.stopSelf o) ∈ as) := by
  rcases message_run as h hr h0 with h1 | h1 | ⟨run', h1, h2⟩
  · simp [h1] at ho
  · simp [h1] at ho
  · simp only at h1
    rw [ho] at h1; simp at h1; obtain ⟨rfl, rfl, rfl⟩ := h1
    obtain ⟨w1, ms, hc, hm⟩ := hd
    simp only [Xtra.call, ho] at hc
    simp at hc; obtain ⟨rfl, rfl⟩ := hc
    refine ⟨!run, ?_, by rw [← h2]; simp⟩
    have hlast : ∀ (ms : List Micro) {w w' : World}, Runs w (ms ++ [.respond b' am' r (!run)]) w' →
        w'.log.head? = some (.flow b' am' (!run)) := by
      intro ms w w' hr
      obtain ⟨w2, hr1⟩ := runs_total w ms
      obtain ⟨w3, hr2⟩ := runs_total w2 [.respond b' am' r (!run)]
      have := hr.det (hr1.append hr2)
      subst this
      cases hr2 with
      | cons h =>
        cases am' <;> (simp [exec] at h; have := runs_nil h; subst this; simp [World.ev])
    exact hlast [.dropRx, .dropBq b'] hm

theorem Runs.schedule {w w' : World} {ms : List Micro} (h : Runs w ms w') :
    ∀ {th : List (List Micro)} {t : Nat}, th[t]? = some ms → ∃ as, Sys.run ⟨w, th⟩ as = some ⟨w', th.set t []⟩ := by
  induction h with
  | nil =>
    intro th t ht
    refine ⟨[], ?_⟩
    have : th.set t [] = th := by
      apply List.ext_getElem?
      intro k
      by_cases hk : t = k
      · subst hk; simp [List.getElem?_set, ht]; exact (List.getElem?_eq_some_iff.mp ht).1
      · simp [List.getElem?_set, hk]
    rw [this]; rfl
  | cons _ ih =>
    rename_i w w' m ms _
    intro th t ht
    have hs : Sys.step ⟨w, th⟩ (.exec t) = some ⟨(exec w m).1, th.set t ((exec w m).2 ++ ms)⟩ := by
      simp [Sys.step, ht]
    obtain ⟨as, has⟩ := ih (th := th.set t ((exec w m).2 ++ ms)) (t := t)
      (by simp [List.getElem?_set]; exact (List.getElem?_eq_some_iff.mp ht).1)
    refine ⟨.exec t :: as, ?_⟩
    simp only [Sys.run, hs]
    simpa using has

theorem Runs.log_suffix {cap : Option Nat} {w w' : World} {ms : List Micro} (h : Runs w ms w') :
    ∀ {th : List (List Micro)} {t : Nat}, Reachable cap ⟨w, th⟩ → th[t]? = some ms → w.log <:+ w'.log := by
  induction h with
  | nil => intro _ _ _ _; exact List.suffix_refl _
  | cons _ ih =>
    rename_i w w' m ms _
    intro th t hr ht
    have hs : Sys.step ⟨w, th⟩ (.exec t) = some ⟨(exec w m).1, th.set t ((exec w m).2 ++ ms)⟩ := by
      simp [Sys.step, ht]
    exact (step_suffix hr hs).trans
      (ih (.step hr hs) (t := t) (by simp [List.getElem?_set]; exact (List.getElem?_eq_some_iff.mp ht).1))

/-- **C17.** Dispatching a shutdown notice runs no handler and returns `Break`; dispatching anything else starts the
handler with nothing else changed. -/
theorem C17_shutdown_breaks {cap : Option Nat} {w w' : World} {o b : Nat} {am : AMsg} (hq : Quiet cap w) (h0 : w.objs[o]? = some (.message b am))
    (hd : Does w (.dispatch o) w') :
    (am.isStop = true → w'.objs[o]? = some .gone ∧ ∃ l, w'.log = l ++ .flow b am true :: w.log) ∧
    (am.isStop = false → w' = { w with objs := w.objs.set o (.dispatch b am true) }) := by
  obtain ⟨w1, ms, hc, hm⟩ := hd
  obtain ⟨th, t, hr, ht⟩ := (hq.call hc).reach
  have hsuf := hm.log_suffix hr ht
  have hkeep : ∀ {x : Obj}, w1.objs[o]? = some x → x = .gone → w'.objs[o]? = some .gone := by
    intro x h1 h2; subst h2
    obtain ⟨as, has⟩ := hm.schedule ht
    exact gone_forever as hr has h1
  have hl := (List.getElem?_eq_some_iff.mp h0).1
  have hc := call_rel hc
  cases hc with
  | dispatch_stop h1 h2 =>
    rw [h0] at h1; simp at h1; obtain ⟨rfl, rfl⟩ := h1
    refine ⟨fun _ => ⟨hkeep (by simp [World.setObj, World.ev, hl]) rfl, ?_⟩, fun hs => ?_⟩
    · obtain ⟨l, hl⟩ := hsuf
      exact ⟨l, hl.symm⟩
    · rcases h2 with rfl | ⟨m, rfl, h2⟩ <;> simp [AMsg.isStop] at hs
      exact absurd h2 hs
  | dispatch_run h1 h2 h3 =>
    rw [h0] at h1; simp at h1; obtain ⟨rfl, rfl⟩ := h1
    refine ⟨fun hs => ?_, fun hs => ?_⟩
    · cases am <;> simp [AMsg.isStop] at hs h2 h3
      exact absurd hs h3
    · have := runs_nil hm; subst this; rfl

/-- **C17.** `stop_self` changes nothing but the stop flag of this very handler. -/
theorem C17_stop_self_local {w w' : World} {o b : Nat} {am : AMsg} {run : Bool} (h0 : w.objs[o]? = some (.dispatch b am run))
    (hd : Does w (.stopSelf o) w') : w' = { w with objs := w.objs.set o (.dispatch b am false) } := by
  obtain ⟨w1, ms, hc, hm⟩ := hd
  simp only [Xtra.call, h0] at hc
  simp at hc; obtain ⟨rfl, rfl⟩ := hc
  exact runs_nil hm

/-- **C17.** Dispatching a message, stopping the actor in the handler, completing the handler, or dropping the message
leaves untouched: the unicast queue, the broadcasts queued for any other mailbox, the mailbox itself, the parked sends and
the number of strong addresses. -/
theorem C17_queues_untouched {cap : Option Nat} {w w' : World} {i b : Nat} {c : Call} (hq : Quiet cap w) (hc : c.handles = true)
    (hi : w.objs[i]? = some (.mailbox b)) (hd : Does w c w') :
    w'.uq = w.uq ∧ w'.items b = w.items b ∧ w'.objs[i]? = some (.mailbox b) ∧ w'.ws = w.ws ∧ w'.strongRefs = w.strongRefs := by
  have k := handles_keeps hq hc hi hd
  have h1 := (C14_counts_exact_quiet hq).1
  have h2 := (C14_counts_exact_quiet (hq.does hd)).1
  exact ⟨k.uq, k.items, by rw [k.obj]; exact hi, k.ws, by rw [← h1, ← h2]; exact k.sc⟩

/-! ### Examples -/

/-- Capacity 1. A message (id 0) is being handled (object 3); a second mailbox (object 4, queue 1) exists; another
message (id 1) is queued; object 6 is a fresh receive future of the second mailbox. -/
def exStopSched : List Act :=
  [.call (.send 0), .call (.pollSend 2 0), .exec 1, .exec 1, .exec 1, .exec 1, .exec 1, .call (.next 1),
   .call (.pollRecv 3 0), .exec 3, .call (.dispatch 3), .call (.cloneMailbox 1), .exec 5,
   .call (.send 0), .call (.pollSend 5 0), .exec 7, .exec 7, .exec 7, .exec 7, .exec 7,
   .call (.next 4)]

/-- C16: the notice reaches both mailboxes of capacity 1 although a broadcast could not, and the receive future of the
second mailbox then yields it although a unicast message is queued. Meets the hypotheses of `C16_stop_all`, `C16_next_takes_notice`. -/
example : ∃ w w' w'', Quiet (some 1) w ∧ w.objs[3]? = some (.dispatch 0 (.one ⟨0, .valued 0⟩) true) ∧ 0 < w.strongRefs ∧
    w.mailboxLive 0 ∧ w.mailboxLive 1 ∧ w.uq = [⟨1, .valued 0⟩] ∧ Does w (.stopAll 3) w' ∧ w'.items 0 = [⟨2, .shutdown⟩] ∧
    w'.items 1 = [⟨2, .shutdown⟩] ∧ Does w' (.pollRecv 6 0) w'' ∧ w''.yielded 6 1 (.all ⟨2, .shutdown⟩) := by
  refine ⟨_, _, _, ⟨_, Reachable.run .init (as := exStopSched) rfl, by decide⟩, rfl, by decide, ⟨.mailbox 0, by decide, rfl⟩,
    ⟨.mailbox 1, by decide, rfl⟩, rfl, ⟨_, _, rfl, .cons (.cons .nil)⟩, rfl, rfl, ⟨_, _, rfl, .cons .nil⟩, rfl, rfl⟩

/-- C17: a handler calls `stop_self`, another API call happens, the handler completes: `Break`.
Meets the hypotheses of `C17_break_iff_stop_self`, `C17_stop_self_local`. -/
example : ∃ s w w', Reachable (some 1) s ∧ s.w.objs[3]? = some (.message 0 (.one ⟨0, .valued 0⟩)) ∧
    s.run [.call (.dispatch 3), .call (.stopSelf 3), .call (.len 0)] = some w ∧
    Does w.w (.finish 3 7) w' ∧ w'.log.head? = some (.flow 0 (.one ⟨0, .valued 0⟩) true) := by
  refine ⟨_, _, _, Reachable.run .init (as := exStopSched.take 10) rfl, rfl, rfl, ⟨_, _, rfl, .cons (.cons (.cons .nil))⟩, rfl⟩

/-- C17: without `stop_self` it is `Continue`, and the queued message and mailbox stay. Meets the hypotheses of `C17_queues_untouched`. -/
example : ∃ w w', Quiet (some 1) w ∧ w.objs[1]? = some (.mailbox 0) ∧ w.uq = [⟨1, .valued 0⟩] ∧ Does w (.finish 3 7) w' ∧
    w'.log.head? = some (.flow 0 (.one ⟨0, .valued 0⟩) false) ∧ w'.uq = [⟨1, .valued 0⟩] := by
  refine ⟨_, _, ⟨_, Reachable.run .init (as := exStopSched) rfl, by decide⟩, rfl, rfl,
    ⟨_, _, rfl, .cons (.cons (.cons .nil))⟩, rfl, rfl⟩

/-- C17: a shutdown notice is dispatched. Meets the hypotheses of `C17_shutdown_breaks`. -/
example : ∃ w w', Quiet (some 1) w ∧ w.objs[6]? = some (.message 1 (.all ⟨2, .shutdown⟩)) ∧ Does w (.dispatch 6) w' ∧
    w'.log.head? = some (.flow 1 (.all ⟨2, .shutdown⟩) true) := by
  refine ⟨_, _, ⟨_, Reachable.run .init (as := exStopSched ++ [.call (.stopAll 3), .exec 9, .exec 9, .call (.pollRecv 6 0), .exec 10]) rfl,
    by decide⟩, rfl, ⟨_, _, rfl, .cons (.cons .nil)⟩, rfl⟩

/-- The step of `stop_all` that puts up the notice, with two live mailboxes and a queued message. Meets the hypotheses of
`C16_notice_everywhere`. -/
example : ∃ s s', Reachable (some 1) s ∧ s.th[9]? = some [.bcastShutdown, .dropTx .strong] ∧ s.step (.exec 9) = some s' ∧
    s'.w.items 0 = [⟨2, .shutdown⟩] ∧ s'.w.items 1 = [⟨2, .shutdown⟩] ∧ s'.w.uq = [⟨1, .valued 0⟩] :=
  ⟨_, _, Reachable.run .init (as := exStopSched ++ [.call (.stopAll 3)]) rfl, rfl, rfl, rfl, rfl, rfl⟩

/-- The notice is taken by one mailbox while another has it still, and a message is queued. Meets the hypotheses of
`C16_notice_stays`, `C16_next_is_notice`. -/
example : ∃ s s', Reachable (some 1) s ∧ s.step (.exec 10) = some s' ∧ ⟨2, .shutdown⟩ ∈ s.w.items 0 ∧ ⟨2, .shutdown⟩ ∈ s.w.items 1 ∧
    s'.w.mailboxLive 0 ∧ ⟨2, .shutdown⟩ ∈ s'.w.items 0 ∧ Ev.recv 6 1 (.all ⟨2, .shutdown⟩) ∈ s'.w.log ∧
    Ev.recv 6 1 (.all ⟨2, .shutdown⟩) ∉ s.w.log ∧ s.w.uq = [⟨1, .valued 0⟩] :=
  ⟨_, _, Reachable.run .init (as := exStopSched ++ [.call (.stopAll 3), .exec 9, .exec 9, .call (.pollRecv 6 0)]) rfl, rfl, by decide,
    by decide, ⟨.mailbox 0, by decide, rfl⟩, by decide, by decide, by decide, rfl⟩

end Xtra
