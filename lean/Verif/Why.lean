import Verif.WsId
import Verif.PropsCount
import Verif.PropsSend2
import Verif.PropsStop
/-! # Why a send future fails: `Disconnected` and `Interrupted` traced to their causes (C10, C18) -/

set_option linter.unusedSimpArgs false

namespace Xtra

/-- The interesting events a micro-step can add. -/
inductive Added (w : World) : Micro → Ev → Prop where
  | ld1d {f md m rc wk} : w.rcv = 0 → Added w (.sendLd1 f md m rc wk) (.dropped m.id)
  | ld1e {f md m rc wk} : w.rcv = 0 → Added w (.sendLd1 f md m rc wk) (.sendErr f m.id)
  | ld2d {f md m rc wk} : w.sc = 0 → Added w (.sendLd2 f md m rc wk) (.dropped m.id)
  | ld2e {f md m rc wk} : w.sc = 0 → Added w (.sendLd2 f md m rc wk) (.sendErr f m.id)
  | closed {f md i h wk x} : w.ws[h]? = some (.closed x) → Added w (.pollWs f md i h wk) (.sendErr f i)
  | dropMsg {m} : Added w (.dropMsg m) (.dropped m.id)
  | dropWs {h wk m} : w.ws[h]? = some (.active wk m) → Added w (.dropWs h) (.dropped m.id)
  | shutTx {i} : Added w .shutTx (.dropped i)
  | int {f i wk x} : w.resp[i]? = some (.interrupted x) → Added w (.sendFin f .ret i wk) (.replyInt f i)
  | lost {c x m} : w.cells[c]? = some (.full (.newMessage m) x) → Added w (.dropCell c) (.lost m.id)
  | discarded {m} : Added w (.discard (.one m)) (.discarded m.id)

/-- Events whose cause we trace. -/
def Ev.traced : Ev → Bool
  | .sendErr _ _ => true
  | .replyInt _ _ => true
  | .dropped _ => true
  | .lost _ => true
  | .discarded _ => true
  | _ => false

theorem execR_traced {w w' : World} {mc : Micro} {ms : List Micro} (h : ExecR w mc w' ms) (rg : RegWs w.ws w.wOne w.wAll)
    {e : Ev} (he : e ∈ w'.log) (ht : e.traced = true) : e ∈ w.log ∨ Added w mc e := by
  cases h
  case shutTx =>
    rcases shutTx_mem he with h | ⟨j, h⟩
    · exact .inl h
    · subst h; exact .inr .shutTx
  case recv_all hp _ _ =>
    simp at he
    rcases popBroadcast_log rg hp with h' | ⟨m', ts, h'⟩ <;> rw [show _ = _ from h'] at he
    · rcases he with rfl | he; simp [Ev.traced] at ht; exact .inl he
    · simp at he; rcases he with rfl | rfl | he; simp [Ev.traced] at ht; simp [Ev.traced] at ht; exact .inl he
  case recvBcast_some hp =>
    simp at he
    rcases popBroadcast_log rg hp with h' | ⟨m', ts, h'⟩ <;> rw [show _ = _ from h'] at he
    · rcases he with rfl | he; simp [Ev.traced] at ht; exact .inl he
    · simp at he; rcases he with rfl | rfl | he; simp [Ev.traced] at ht; simp [Ev.traced] at ht; exact .inl he
  case recv_one hp _ _ => simp [World.popUnicast_log hp] at he; rcases he with rfl | he; simp [Ev.traced] at ht; exact .inl he
  case sendLd1_err h0 =>
    simp at he; rcases he with rfl | rfl | he
    · exact .inr (.ld1e h0)
    · exact .inr (.ld1d h0)
    · exact .inl he
  case sendLd2_err h0 =>
    simp at he; rcases he with rfl | rfl | he
    · exact .inr (.ld2e h0)
    · exact .inr (.ld2d h0)
    · exact .inl he
  case pollWs_closed h0 => simp at he; rcases he with rfl | he; exact .inr (.closed h0); exact .inl he
  case dropMsg => simp at he; rcases he with rfl | he; exact .inr .dropMsg; exact .inl he
  case dropWs_active h0 => simp at he; rcases he with rfl | he; exact .inr (.dropWs h0); exact .inl he
  case sendFin_interrupted h0 => simp at he; rcases he with rfl | he; exact .inr (.int h0); exact .inl he
  case dropCell_lost h0 => simp at he; rcases he with rfl | he; exact .inr (.lost h0); exact .inl he
  case discard_one => simp at he; rcases he with rfl | he; exact .inr .discarded; exact .inl he
  all_goals first
    | exact .inl he
    | (rw [World.decBq_log] at he; exact .inl he)
    | (rcases lateLog_mem he with he | rfl; exact .inl he; simp [Ev.traced] at ht; done)
    | (simp at he; rcases lateLog_mem he with he | rfl; exact .inl he; simp [Ev.traced] at ht; done)
    | (simp [World.sendBroadcast] at he; rcases he with rfl | he; simp [Ev.traced] at ht; exact .inl he; done)
    | (simp [World.sendBroadcast] at he; rcases he with rfl | he; simp [Ev.traced] at ht; rcases lateLog_mem he with he | rfl; exact .inl he; simp [Ev.traced] at ht; done)
    | (simp at he; rcases he with rfl | he; simp [Ev.traced] at ht; exact .inl he; done)
    | (simp at he; rcases he with rfl | rfl | he; simp [Ev.traced] at ht; simp [Ev.traced] at ht; exact .inl he; done)


theorem callR_traced {w w' : World} {c : Call} {ms : List Micro} (h : CallR w c w' ms) {e : Ev} (he : e ∈ w'.log) (ht : e.traced = true) :
    e ∈ w.log ∨ ∃ o i wk x, c = .pollReply o wk ∧ w.objs[o]? = some (.reply i) ∧ w.resp[i]? = some (.interrupted x) ∧ e = .replyInt o i := by
  cases h
  case pollReply_interrupted h1 h2 =>
    simp at he; rcases he with rfl | he
    · exact .inr ⟨_, _, _, _, rfl, h1, h2, rfl⟩
    · exact .inl he
  all_goals first
    | exact .inl he
    | (simp at he; exact .inl he)
    | (simp at he; rcases he with rfl | he; simp [Ev.traced] at ht; exact .inl he; done)

/-- The critical section that clears the channel runs only when no mailbox is left. -/
theorem shutTx_rcv {cap : Option Nat} {s : Sys} (h : Reachable cap s) : ∀ ms ∈ s.th, Micro.shutTx ∈ ms → s.w.rcv = 0 := by
  induction h with
  | init => simp [init]
  | @step s s' a hr hs ih =>
    have hz := (C15_zero_forever hr hs).2
    intro x hx hm
    rcases step_rel hs with ⟨c, w', ms, rfl, hc, rfl⟩ | ⟨t, m1, rest, w', ms, rfl, ht, he, rfl⟩
    · simp at hx
      rcases hx with hx | rfl
      · exact hz (ih x hx hm)
      · cases hc <;> simp at hm
    · rcases List.mem_or_eq_of_mem_set hx with hx | rfl
      · exact hz (ih x hx hm)
      · rcases List.mem_append.mp hm with hm | hm
        · cases he <;> simp at hm
          rename_i h1 _; simp [h1]
        · exact hz (ih _ (List.mem_of_getElem? ht) (by simp [hm]))

/-- A parked send is failed only when no mailbox is left. -/
theorem closed_rcv {cap : Option Nat} {s : Sys} (h : Reachable cap s) {k : Nat} {x : Option Nat} : s.w.ws[k]? = some (.closed x) → s.w.rcv = 0 := by
  induction h generalizing x with
  | init => simp [init]
  | @step s s' a hr hs ih =>
    have hz := (C15_zero_forever hr hs).2
    intro hx
    rcases step_rel hs with ⟨c, w', ms, rfl, hc, rfl⟩ | ⟨t, m1, rest, w', ms, rfl, ht, he, rfl⟩
    · have : w'.ws = s.w.ws := by cases hc <;> simp
      exact hz (ih (by rw [← this]; exact hx))
    · have rg := regWs_reachable hr
      cases h0 : s.w.ws[k]? with
      | none =>
        obtain ⟨_, _, _, _, _, _, h1, -⟩ := execR_newWs he rg hx h0
        simp at h1
      | some y =>
        rcases execR_evo he rg h0 with h1 | ⟨_, _, _, _, _, _, -, -, h1⟩ | ⟨_, _, -, h1, -⟩ | ⟨_, _, -, -, h1, -⟩ | ⟨h1, -⟩
        · rw [hx] at h1; simp at h1; subst h1; exact hz (ih h0)
        · rw [hx] at h1; simp at h1
        · rw [hx] at h1; simp at h1
        · subst h1
          exact hz (shutTx_rcv hr _ (List.mem_of_getElem? ht) (List.mem_cons_self ..))
        · rw [hx] at h1; simp at h1

/-- **C10.** A send future that resolved to `Err(Disconnected)` never lied: in every reachable state of every interleaving, if any send
has failed that way then no mailbox is left or no strong address is left (and by C15 that is final). -/
theorem C10_err_means_disconnected {cap : Option Nat} {s : Sys} (h : Reachable cap s) {f i : Nat} (he : Ev.sendErr f i ∈ s.w.log) :
    s.w.rcv = 0 ∨ s.w.sc = 0 := by
  induction h with
  | init => simp [init] at he
  | @step s s' a hr hs ih =>
    have hz := C15_zero_forever hr hs
    have old : Ev.sendErr f i ∈ s.w.log → s'.w.rcv = 0 ∨ s'.w.sc = 0 := fun h => (ih h).imp hz.2 hz.1
    rcases step_rel hs with ⟨c, w', ms, rfl, hc, rfl⟩ | ⟨t, m1, rest, w', ms, rfl, ht, hx, rfl⟩
    · rcases callR_traced hc he rfl with h | ⟨_, _, _, _, -, -, -, h⟩
      · exact old h
      · simp at h
    · rcases execR_traced hx (regWs_reachable hr) he rfl with h | h
      · exact old h
      · cases h with
        | ld1e h0 => exact .inl (hz.2 h0)
        | ld2e h0 => exact .inr (hz.1 h0)
        | closed h0 => exact .inl (hz.2 (closed_rcv hr h0))

/-- Message `i` is destroyed on the sender's side, or about to be. -/
def Sys.senderDropped (s : Sys) (i : Nat) : Prop :=
  Ev.dropped i ∈ s.w.log ∨ (∃ ms ∈ s.th, ∃ m, Micro.dropMsg m ∈ ms ∧ m.id = i) ∨
  ∃ ms ∈ s.th, ∃ h wk m, Micro.dropWs h ∈ ms ∧ s.w.ws[h]? = some (.active wk m) ∧ m.id = i

theorem senderDropped_lt {cap : Option Nat} {s : Sys} (h : Reachable cap s) {i : Nat} (hd : s.senderDropped i) : i < s.w.resp.length := by
  have h1 := held_reachable h i
  have h2 : 0 < created i s.w := by
    rw [← h1]
    rcases hd with h | ⟨ms, hm, m, h, rfl⟩ | ⟨ms, hm, k, wk, m, -, h, rfl⟩
    · have := sum_ne_of_mem (eAll i) h; simp [eAll, n1] at this; simp only [World.held]; omega
    · have a := sum_ne_of_mem (mAll m.id) h
      have b := sum_ne_of_mem (sumBy (mAll m.id)) hm
      simp [mAll, mid1] at a; simp only [tot]; omega
    · have a := le_sumBy (wsW m.id) h; simp [wsW, mid1] at a; simp only [World.held]; omega
  unfold created at h2; split at h2 <;> omega

theorem execR_noDrop {w w' : World} {mc : Micro} {ms : List Micro} (h : ExecR w mc w' ms) :
    (∀ m, Micro.dropMsg m ∉ ms) ∧ ∀ k, Micro.dropWs k ∉ ms := by
  cases h <;> simp

theorem callR_drop {w w' : World} {c : Call} {ms : List Micro} (h : CallR w c w' ms) :
    (∀ m, Micro.dropMsg m ∈ ms → ∃ (f : Nat) (md : Mode) (mid : Nat) (rc : Rc), w.objs[f]? = some (.send md mid (.new m rc)) ∧ w'.objs[f]? = some .gone) ∧
    (∀ k, Micro.dropWs k ∈ ms → ∃ (f : Nat) (md : Mode) (mid : Nat), w.objs[f]? = some (.send md mid (.waiting k)) ∧ w'.objs[f]? = some .gone) := by
  cases h
  case dropSend_new ho =>
    have hl := (List.getElem?_eq_some_iff.mp ho).1
    exact ⟨fun m hm => by simp at hm; subst hm; exact ⟨_, _, _, _, ho, by simp [hl]⟩, by simp⟩
  case dropSend_waiting ho =>
    have hl := (List.getElem?_eq_some_iff.mp ho).1
    exact ⟨by simp, fun m hm => by simp at hm; subst hm; exact ⟨_, _, _, ho, by simp [hl]⟩⟩
  case setPrio_waiting ho =>
    have hl := (List.getElem?_eq_some_iff.mp ho).1
    exact ⟨by simp, fun m hm => by simp at hm; subst hm; exact ⟨_, _, _, ho, by simp [hl]⟩⟩
  all_goals simp

theorem execR_made {w w' : World} {mc : Micro} {ms : List Micro} (h : ExecR w mc w' ms) (rg : RegWs w.ws w.wOne w.wAll)
    {f i : Nat} {bc : Bool} (he : Ev.made f i bc ∈ w'.log) : Ev.made f i bc ∈ w.log := by
  cases h
  case shutTx =>
    rcases shutTx_mem he with h | ⟨j, h⟩
    · exact h
    · simp at h
  case recv_all hp _ _ =>
    simp at he
    rcases popBroadcast_log rg hp with h' | ⟨m', ts, h'⟩ <;> rw [show _ = _ from h'] at he
    · exact he
    · simpa using he
  case recvBcast_some hp =>
    simp at he
    rcases popBroadcast_log rg hp with h' | ⟨m', ts, h'⟩ <;> rw [show _ = _ from h'] at he
    · exact he
    · simpa using he
  case recv_one hp _ _ => simpa [World.popUnicast_log hp] using he
  all_goals first
    | exact he
    | (rw [World.decBq_log] at he; exact he)
    | (rcases lateLog_mem he with he | h; exact he; simp at h; done)
    | (simp at he; exact he)
    | (simp at he; rcases lateLog_mem he with he | h; exact he; simp at h; done)
    | (simp [World.sendBroadcast] at he; exact he)
    | (simp [World.sendBroadcast] at he; rcases lateLog_mem he with he | h; exact he; simp at h; done)

theorem callR_made {w w' : World} {c : Call} {ms : List Micro} (h : CallR w c w' ms) {f i : Nat} {bc : Bool}
    (he : Ev.made f i bc ∈ w'.log) : Ev.made f i bc ∈ w.log ∨ (i = w.resp.length ∧ ms = []) := by
  cases h <;> first
    | exact .inl he
    | (simp at he; exact .inl he)
    | (simp at he; rcases he with ⟨-, rfl, -⟩ | he; exact .inr ⟨rfl, rfl⟩; exact .inl he)

theorem execR_ld2 {w w' : World} {f wk : Nat} {md : Mode} {m : Msg} {rc : Rc} {ms : List Micro} (h : ExecR w (.sendLd2 f md m rc wk) w' ms)
    (h0 : w.sc = 0) (hwf : WF w (.sendLd2 f md m rc wk)) : w'.objs[f]? = some .gone := by
  have hl := (List.getElem?_eq_some_iff.mp hwf).1
  cases h with
  | sendLd2_err _ => simp [hl]
  | sendLd2_ok h => exact absurd h0 h

/-- The future of a message destroyed on the sender's side is gone, as long as there is a mailbox. -/
theorem senderDropped_gone {cap : Option Nat} {s : Sys} (h : Reachable cap s) : s.w.rcv ≠ 0 → ∀ f i bc, Ev.made f i bc ∈ s.w.log →
    s.senderDropped i → s.w.objs[f]? = some .gone := by
  induction h with
  | init => simp [init]
  | @step s s' a hr hs ih =>
    intro h0 f i bc hm hd
    have hz := mt (C15_zero_forever hr hs).2 h0
    have k := kInv_reachable hr
    have rg := regWs_reachable hr
    have old : Ev.made f i bc ∈ s.w.log → s.senderDropped i → s'.w.objs[f]? = some .gone := by
      intro h1 h2
      exact (dispatch_step hr hs (ih hz f i bc h1 h2)).1 rfl
    rcases step_rel hs with ⟨c, w', ms, rfl, hc, rfl⟩ | ⟨t, mc, rest, w', ms, rfl, ht, he, rfl⟩
    · have hws : w'.ws = s.w.ws := by cases hc <;> simp
      have same : ∀ {g : Nat} {md : Mode} {bc'}, Ev.made g i bc' ∈ s.w.log → Ev.made f i bc ∈ s.w.log → f = g :=
        fun h1 h2 => ((k.uniq _ _ _ _ _ _ h2 h1).1).mpr rfl
      have back : s.senderDropped i ∨ (∃ m, Micro.dropMsg m ∈ ms ∧ m.id = i) ∨
          (∃ h wk m, Micro.dropWs h ∈ ms ∧ s.w.ws[h]? = some (.active wk m) ∧ m.id = i) := by
        rcases hd with h | ⟨x, hx, m, h, rfl⟩ | ⟨x, hx, k, wk, m, h, h2, rfl⟩
        · rcases callR_traced hc h rfl with h | ⟨_, _, _, _, -, -, -, h⟩
          · exact .inl (.inl h)
          · simp at h
        · simp at hx; rcases hx with hx | rfl
          · exact .inl (.inr (.inl ⟨x, hx, m, h, rfl⟩))
          · exact .inr (.inl ⟨m, h, rfl⟩)
        · simp only at h2; rw [hws] at h2
          simp at hx; rcases hx with hx | rfl
          · exact .inl (.inr (.inr ⟨x, hx, k, wk, m, h, h2, rfl⟩))
          · exact .inr (.inr ⟨k, wk, m, h, h2, rfl⟩)
      rcases callR_made hc hm with hm | ⟨rfl, rfl⟩
      · rcases back with h | ⟨m, h, rfl⟩ | ⟨h', wk, m, h, h2, rfl⟩
        · exact old hm h
        · obtain ⟨g, md, mid, rc, h3, h4⟩ := (callR_drop hc).1 m h
          have h5 := k.kw.objs _ _ h3
          obtain ⟨h5, h6⟩ := h5
          rw [← h6.1] at h5
          rw [same (md := md) h5 hm]; exact h4
        · obtain ⟨g, md, mid, h3, h4⟩ := (callR_drop hc).2 _ h
          have h5 := (wsId_reachable hr).obj h3 h2
          have h6 := (k.kw.objs _ _ h3).1
          rw [← h5] at h6
          rw [same (md := md) h6 hm]; exact h4
      · rcases back with h | ⟨m, h, -⟩ | ⟨_, _, _, h, -⟩
        · have := senderDropped_lt hr h; omega
        · simp at h
        · simp at h
    · have hm := execR_made he rg hm
      have hwf := wf_reachable hr ht
      have hth := List.mem_of_getElem? ht
      have thm : ∀ {x : List Micro} {y : Micro}, x ∈ s.th.set t (ms ++ rest) → y ∈ x → (y ∈ ms ∨ ∃ z ∈ s.th, y ∈ z) := by
        intro x y hx hy
        rcases List.mem_or_eq_of_mem_set hx with hx | rfl
        · exact .inr ⟨x, hx, hy⟩
        · rcases List.mem_append.mp hy with hy | hy
          · exact .inl hy
          · exact .inr ⟨_, hth, by simp [hy]⟩
      rcases hd with h | ⟨x, hx, m, h, rfl⟩ | ⟨x, hx, k', wk, m, h, h2, rfl⟩
      · rcases execR_traced he rg h rfl with h | h
        · exact old hm (.inl h)
        · generalize hmc : mc = mc' at h
          generalize hev : Ev.dropped i = e at h
          cases h with
          | ld1d h0 => exact absurd h0 hz
          | ld2d h0 =>
            subst hmc
            simp at hev; subst hev
            have h1 := k.th _ hth _ (List.mem_cons_self ..)
            rw [((k.uniq _ _ _ _ _ _ hm h1.1).1).mpr rfl]
            exact execR_ld2 he h0 hwf
          | dropMsg => simp at hev; subst hmc; exact old hm (.inr (.inl ⟨_, hth, _, List.mem_cons_self .., hev.symm⟩))
          | dropWs h1 => simp at hev; subst hmc; exact old hm (.inr (.inr ⟨_, hth, _, _, _, List.mem_cons_self .., h1, hev.symm⟩))
          | shutTx => subst hmc; exact absurd (shutTx_rcv hr _ hth (List.mem_cons_self ..)) hz
          | _ => simp at hev
      · rcases thm hx h with h | ⟨z, hz, h⟩
        · exact absurd h ((execR_noDrop he).1 m)
        · exact old hm (.inr (.inl ⟨z, hz, m, h, rfl⟩))
      · rcases thm hx h with h | ⟨z, hz', h⟩
        · exact absurd h ((execR_noDrop he).2 k')
        · rcases execR_wsBack he rg h2 with ⟨wk', h3⟩ | ⟨h3, -⟩
          · exact old hm (.inr (.inr ⟨z, hz', k', wk', m, h, h3, rfl⟩))
          · exfalso
            have a := sum_ne_of_mem (mWs k') h
            have b := sum_ne_of_mem (sumBy (mWs k')) hz'
            have c := (own_reachable hr).ws k'
            have d : 0 < tot (mWs k') s.th := by simp only [tot]; simp [mWs, is1] at a; omega
            have e : wsL s.w.ws k' = 0 := by simp [wsL, wsActive, h3]
            omega

/-- **C18.** Why a request fails with `Interrupted`: in every reachable state of every interleaving, if any reply was ever observed as
`Err(Interrupted)`, then no mailbox, receive future, message or dispatch is left, or the message was destroyed inside a dropped receive
future (the race of C03), or it was received and its handler dropped before completion. -/
theorem C18_interrupted_only_if {cap : Option Nat} {s : Sys} (h : Reachable cap s) {f i : Nat} (he : Ev.replyInt f i ∈ s.w.log) :
    s.w.rcv = 0 ∨ Ev.lost i ∈ s.w.log ∨ Ev.discarded i ∈ s.w.log := by
  induction h with
  | init => simp [init] at he
  | @step s s' a hr hs ih =>
    have hz := (C15_zero_forever hr hs).2
    have sx := (step_suffix hr hs).subset
    have old : Ev.replyInt f i ∈ s.w.log → s'.w.rcv = 0 ∨ Ev.lost i ∈ s'.w.log ∨ Ev.discarded i ∈ s'.w.log :=
      fun h => (ih h).imp hz (Or.imp (fun h => sx h) (fun h => sx h))
    have k := kInv_reachable hr
    have key : ∀ x, s.w.resp[i]? = some (.interrupted x) → Ev.made f i false ∈ s.w.log → s.w.objs[f]? ≠ some .gone →
        s'.w.rcv = 0 ∨ Ev.lost i ∈ s'.w.log ∨ Ev.discarded i ∈ s'.w.log := by
      intro x hx hm hg
      by_cases h0 : s.w.rcv = 0
      · exact .inl (hz h0)
      · have := resp_reachable hr i
        rw [hx] at this
        rcases this with h | h | h
        · exact absurd (senderDropped_gone hr h0 f i false hm (.inl h)) hg
        · exact .inr (.inl (sx h))
        · exact .inr (.inr (sx h))
    rcases step_rel hs with ⟨c, w', ms, rfl, hc, rfl⟩ | ⟨t, m1, rest, w', ms, rfl, ht, hx, rfl⟩
    · rcases callR_traced hc he rfl with h | ⟨o, j, _, x, -, h1, h2, h⟩
      · exact old h
      · simp at h; obtain ⟨rfl, rfl⟩ := h
        exact key x h2 (k.kw.objs _ _ h1) (by rw [h1]; simp)
    · rcases execR_traced hx (regWs_reachable hr) he rfl with h | h
      · exact old h
      · have hwf := wf_reachable hr ht
        have hk := k.th _ (List.mem_of_getElem? ht) _ (List.mem_cons_self ..)
        cases h with
        | int h0 => exact key _ h0 hk (by rw [show s.w.objs[f]? = some .busy from hwf]; simp)

/-- A request whose message is received and thrown away: interrupted although the mailbox is alive. -/
def exDiscardSched : List Act :=
  [.call (.send 0), .call (.pollSend 2 7), .exec 1, .exec 1, .exec 1, .exec 1, .exec 1,
   .call (.next 1), .call (.pollRecv 3 8), .exec 3, .call (.dropMessage 3), .exec 4, .exec 4, .exec 4,
   .call (.pollSend 2 7), .exec 5]

/-- Meets the hypotheses of `C18_interrupted_only_if`. -/
example : ∃ s, Reachable none s ∧ Ev.replyInt 2 0 ∈ s.w.log ∧ s.w.rcv = 1 ∧ Ev.discarded 0 ∈ s.w.log :=
  ⟨_, Reachable.run .init (as := exDiscardSched) rfl, by decide, by decide, by decide⟩

/-- A send after the last mailbox is gone. Meets the hypotheses of `C10_err_means_disconnected`. -/
example : ∃ s, Reachable (some 1) s ∧ Ev.sendErr 2 0 ∈ s.w.log ∧ s.w.rcv = 0 :=
  ⟨_, Reachable.run .init (as := [.call (.send 0), .call (.dropMailbox 1), .exec 1, .exec 1, .exec 1, .call (.pollSend 2 7), .exec 2]) rfl,
    by decide, by decide⟩

end Xtra
