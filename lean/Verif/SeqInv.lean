import Verif.PropsEnd
/-! Executions in which API calls do not overlap: no send comes too late and no message is lost in a dropped receive
future. -/

set_option linter.unusedSimpArgs false

namespace Xtra

/-- Steps that matter here. -/
def Micro.special : Micro → Bool
  | .sendLd1 .. | .sendLd2 .. | .sendCrit .. | .cancel .. | .requeue .. | .dropCell .. => true
  | _ => false

def notFull (w : World) (c : Nat) : Prop := ∀ m wk, w.cells[c]? ≠ some (.full (.newMessage m) wk)

/-- Shapes of the steps left to the running call (`st`: it may be one whose loads are out of date). -/
inductive Shape (st : Bool) (w : World) : List Micro → Prop where
  | ld1 {f md m rc wk} : Shape st w [.sendLd1 f md m rc wk]
  | ld2 {f md m rc wk} : w.rcv ≠ 0 → Shape st w [.sendLd2 f md m rc wk]
  | crit {f md m rc wk} : (st = true ∨ w.rcv ≠ 0) → Shape st w [.sendCrit f md m rc wk]
  | cancel {b c} : Shape st w [.cancel b c]
  | req {m b c} : w.cells[c]? = some .used → Shape st w [.requeue m, .dropRx, .dropBq b, .dropCell c]
  | rx {b c} : notFull w c → Shape st w [.dropRx, .dropBq b, .dropCell c]
  | stx {b c} : notFull w c → Shape st w [.shutTx, .dropBq b, .dropCell c]
  | dbq {b c} : notFull w c → Shape st w [.dropBq b, .dropCell c]
  | dc {c} : notFull w c → Shape st w [.dropCell c]
  | other {x} : (∀ mc ∈ x, mc.special = false) → Shape st w x

theorem callR_shape {w w' : World} {c : Call} {ms : List Micro} (h : CallR w c w' ms) : Shape c.stale w' ms := by
  cases h <;> first | exact .ld1 | exact .crit (.inl rfl) | exact .cancel | exact .other (by simp [Micro.special])

theorem execR_nospecial {w w' : World} {mc : Micro} {ms : List Micro} (h : ExecR w mc w' ms) (hm : mc.special = false) :
    ∀ x ∈ ms, x.special = false := by
  cases h <;> simp [Micro.special] at hm ⊢

def notLL : Ev → Bool
  | .late _ | .lost _ => false
  | _ => true

theorem shutTx_ll {w : World} (h : ∀ e ∈ w.log, notLL e = true) : ∀ e ∈ w.shutTx.log, notLL e = true := by
  intro e he
  rcases shutTx_log_mem he with h1 | ⟨i, rfl⟩
  · exact h e h1
  · rfl

theorem execR_ll {w w' : World} {mc : Micro} {ms rest : List Micro} (h : ExecR w mc w' ms) (hreg : RegWs w.ws w.wOne w.wAll)
    (hs : Shape false w (mc :: rest)) (hl : ∀ e ∈ w.log, notLL e = true) : ∀ e ∈ w'.log, notLL e = true := by
  have hlate : ∀ {f md m rc wk}, mc = .sendCrit f md m rc wk → w.rcv ≠ 0 := by
    rintro f md m rc wk rfl
    cases hs with
    | crit h => simpa using h
    | other h => simp [Micro.special] at h
  cases h
  case recv_all hp _ _ =>
    intro e he
    simp [World.yieldMsg, World.ev] at he
    rcases he with rfl | he
    · rfl
    · obtain h1 | ⟨m', ts, h1⟩ := popBroadcast_log hreg hp
      · rw [h1] at he; exact hl e he
      · rw [h1] at he; simp at he; rcases he with rfl | he
        · rfl
        · exact hl e he
  case recv_one hp _ _ =>
    intro e he
    simp [World.yieldMsg, World.ev, World.popUnicast_log hp] at he
    rcases he with rfl | he
    · rfl
    · exact hl e he
  case recvBcast_some hp =>
    intro e he
    simp [World.yieldMsg, World.ev] at he
    rcases he with rfl | he
    · rfl
    · obtain h1 | ⟨m', ts, h1⟩ := popBroadcast_log hreg hp
      · rw [h1] at he; exact hl e he
      · rw [h1] at he; simp at he; rcases he with rfl | he
        · rfl
        · exact hl e he
  case shutTx => exact shutTx_ll hl
  case critAll_park => have := hlate rfl; simpa [World.lateLog, this] using hl
  case critAll_sent => have := hlate rfl; simpa [World.sendBroadcast, World.lateLog, this, notLL] using hl
  case critOne_hand => have := hlate rfl; simpa [World.lateLog, this] using hl
  case critOne_park => have := hlate rfl; simpa [World.lateLog, this] using hl
  case critOne_queue => have := hlate rfl; simpa [World.lateLog, this] using hl
  case bcastShutdown => simpa [World.sendBroadcast, notLL] using hl
  case dropCell_lost hc =>
    cases hs with
    | dc h => exact absurd hc (h _ _)
    | other h => simp [Micro.special] at h
  all_goals (simp [World.ev, World.kill, notLL]; exact hl)

theorem execR_shape {st : Bool} {w w' : World} {mc : Micro} {ms rest : List Micro} (h : ExecR w mc w' ms)
    (hs : Shape st w (mc :: rest)) : Shape st w' (ms ++ rest) := by
  cases hs with
  | ld1 =>
    cases h with
    | sendLd1_err => exact .other (by simp [Micro.special])
    | sendLd1_ok h => exact .ld2 h
  | ld2 h0 =>
    cases h with
    | sendLd2_err => exact .other (by simp [Micro.special])
    | sendLd2_ok h => exact .crit (.inr h0)
  | crit => refine .other ?_; cases h <;> simp [Micro.special]
  | cancel =>
    cases h with
    | cancel_msg h =>
      have hl := (List.getElem?_eq_some_iff.mp h).1
      exact .req (by simp [hl])
    | cancel_full h =>
      have hl := (List.getElem?_eq_some_iff.mp h).1
      exact .rx (fun m wk => by simp [hl])
    | cancel_none h => exact .rx (fun m wk => h _ _)
  | req hu =>
    cases h with
    | requeue_hand h1 h2 h3 =>
      refine .rx (fun m wk hx => ?_)
      rcases set_cases hx with ⟨rfl, -⟩ | h
      · rw [hu] at h3; simp at h3
      · rw [hu] at h; simp at h
    | requeue_queue h1 => exact .rx (fun m wk => by simp only; rw [hu]; simp)
  | rx hn =>
    cases h with
    | dropRx_last => exact .stx hn
    | dropRx_more => exact .dbq hn
  | stx hn => cases h; refine .dbq (fun m wk => ?_); have : w.shutTx.cells = w.cells := by simp [World.shutTx]
              rw [this]; exact hn m wk
  | dbq hn =>
    cases h
    refine .dc (fun m wk => ?_)
    have : ∀ b, (w.decBq b).cells = w.cells := by intro b; unfold World.decBq; split <;> (try split) <;> simp
    rw [this]; exact hn m wk
  | dc hn => refine .other ?_; cases h <;> simp
  | other hn =>
    refine .other (fun x hx => ?_)
    rcases List.mem_append.mp hx with h1 | h1
    · exact execR_nospecial h (hn _ (by simp)) x h1
    · exact hn x (by simp [h1])

structure SeqInv (s : Sys) : Prop where
  one : ∀ (t t' : Nat) (x y : List Micro), s.th[t]? = some x → s.th[t']? = some y → x ≠ [] → y ≠ [] → t = t'
  shape : ∀ x ∈ s.th, Shape false s.w x
  ll : ∀ e ∈ s.w.log, notLL e = true

theorem Shape.nil {st : Bool} (w : World) : Shape st w [] := .other (by simp)

theorem callR_ll {w w' : World} {c : Call} {ms : List Micro} (h : CallR w c w' ms) (hl : ∀ e ∈ w.log, notLL e = true) :
    ∀ e ∈ w'.log, notLL e = true := by
  cases h <;> first | exact hl | (simp [World.ev, notLL]; exact hl) | (simp [notLL]; exact hl)

theorem seqInv_reachable {cap : Option Nat} {s : Sys} (h : SeqReachable cap s) : SeqInv s := by
  induction h with
  | init => exact ⟨by simp [init], by simp [init], by simp [init]⟩
  | call hr hi hst hs ih =>
    rename_i s s' c
    rcases step_rel hs with ⟨c, w', ms, hc0, hc, rfl⟩ | ⟨t, mc, rest, w', ms, h1, ht, he, rfl⟩
    · have hem : ∀ x ∈ s.th, x = [] := by simpa [Sys.idle, List.isEmpty_iff] using hi
      refine ⟨?_, ?_, callR_ll hc ih.ll⟩
      · intro t t' x y hx hy hx0 hy0
        rcases append_cases hx with h | ⟨h, -⟩
        · exact absurd (hem _ (List.mem_of_getElem? h.2)) hx0
        · rcases append_cases hy with h' | ⟨h', -⟩
          · exact absurd (hem _ (List.mem_of_getElem? h'.2)) hy0
          · omega
      · intro x hx
        simp at hx
        rcases hx with hx | rfl
        · rw [hem x hx]; exact .nil _
        · cases hc0; exact hst ▸ callR_shape hc
    · simp at h1
  | exec hr hs ih =>
    rename_i s s' t
    rcases step_rel hs with ⟨c, w', ms, h1, hc, rfl⟩ | ⟨t, mc, rest, w', ms, h1, ht, he, rfl⟩
    · simp at h1
    · have hreg := regWs_reachable hr.reachable
      have hsh := ih.shape _ (List.mem_of_getElem? ht)
      refine ⟨?_, ?_, execR_ll he hreg hsh ih.ll⟩
      · intro a b x y hx hy hx0 hy0
        have key : ∀ (a : Nat) (x : List Micro), (s.th.set t (ms ++ rest))[a]? = some x → x ≠ [] → a = t := by
          intro a x hx hx0
          rcases set_cases hx with ⟨rfl, -⟩ | h
          · rfl
          · exact ih.one _ _ _ _ h.2 ht hx0 (by simp)
        rw [key _ _ hx hx0, key _ _ hy hy0]
      · intro x hx
        obtain ⟨a, hx⟩ := List.mem_iff_getElem?.mp hx
        rcases set_cases hx with ⟨rfl, rfl⟩ | h
        · exact execR_shape he hsh
        · by_cases hx0 : x = []
          · rw [hx0]; exact .nil _
          · exact absurd (ih.one _ _ _ _ h.2 ht hx0 (by simp)) (by have := h.1; omega)

end Xtra
