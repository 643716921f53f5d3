import Verif.Wake2
/-! A parked send future waits on a cell that holds its own message, registered in the right queue. -/

set_option linter.unusedSimpArgs false

namespace Xtra

theorem execR_wsBack {w w' : World} {mc : Micro} {ms : List Micro} (he : ExecR w mc w' ms)
    (r : RegWs w.ws w.wOne w.wAll) {h : Nat} {wk : Option Nat} {m : Msg} (hx : w'.ws[h]? = some (.active wk m)) :
    (∃ wk', w.ws[h]? = some (.active wk' m)) ∨
    (w.ws[h]? = none ∧ ∃ f md rc wk, mc = .sendCrit f md m rc wk ∧ ms = [.dropTx rc, .pollWs f md m.id h wk]) := by
  cases h0 : w.ws[h]? with
  | none =>
    obtain ⟨f, md, m', rc, wk', h1, h2, h3, h4⟩ := execR_newWs he r hx h0
    simp at h2; obtain ⟨-, rfl⟩ := h2
    exact .inr ⟨rfl, f, md, rc, wk', h1, h4⟩
  | some x =>
    left
    rcases execR_evo he r h0 with h1 | ⟨a, m', f, md, mid, b, rfl, -, h1⟩ | ⟨a, m', rfl, h1, -⟩ | ⟨a, m', rfl, h1, -⟩ | ⟨h1, -⟩
    · rw [hx] at h1; simp at h1; subst h1; exact ⟨wk, rfl⟩
    · rw [hx] at h1; simp at h1; obtain ⟨-, rfl⟩ := h1; exact ⟨a, rfl⟩
    · rw [hx] at h1; simp at h1
    · rw [hx] at h1; simp at h1
    · rw [hx] at h1; simp at h1

structure WsId (s : Sys) : Prop where
  obj : ∀ {f mid h : Nat} {md : Mode} {wk : Option Nat} {m : Msg}, s.w.objs[f]? = some (.send md mid (.waiting h)) →
    s.w.ws[h]? = some (.active wk m) → m.id = mid
  th : ∀ {ms : List Micro} {f mid h wk' : Nat} {md : Mode} {wk : Option Nat} {m : Msg}, ms ∈ s.th →
    Micro.pollWs f md mid h wk' ∈ ms → s.w.ws[h]? = some (.active wk m) → m.id = mid

theorem sum_ne_of_mem {α : Type _} (g : α → Nat) {x : α} {xs : List α} (h : x ∈ xs) : g x ≤ sumBy g xs := by
  obtain ⟨i, hi⟩ := List.getElem?_of_mem h
  exact le_sumBy g hi

theorem th_ws {s : Sys} (ho : Own s) {ms : List Micro} {f mid h wk' : Nat} {md : Mode} (h1 : ms ∈ s.th)
    (h2 : Micro.pollWs f md mid h wk' ∈ ms) : ∃ x, s.w.ws[h]? = some x := by
  have a := sum_ne_of_mem (mWs h) h2
  have b := sum_ne_of_mem (sumBy (mWs h)) h1
  have c := ho.ws h
  have d : 0 < tot (mWs h) s.th := by simp only [tot]; simp [mWs, is1] at a; omega
  have e : wsActive s.w.ws h = true := by
    unfold wsL at c; split at c
    · assumption
    · omega
  have := wsActive_lt e
  exact ⟨_, List.getElem?_eq_getElem this⟩

theorem mem_set_cases {α : Type _} {xs : List α} {i : Nat} {y x : α} (h : x ∈ xs.set i y) : x ∈ xs ∨ x = y := by
  exact (List.mem_or_eq_of_mem_set h)

theorem callR_pollWs {w w' : World} {c : Call} {ms : List Micro} (h : CallR w c w' ms) {f mid k wk : Nat} {md : Mode}
    (hm : Micro.pollWs f md mid k wk ∈ ms) : w.objs[f]? = some (.send md mid (.waiting k)) ∧ c = .pollSend f wk := by
  cases h <;> simp at hm
  obtain ⟨rfl, rfl, rfl, rfl, rfl⟩ := hm
  exact ⟨by assumption, rfl⟩

theorem callR_waiting {w w' : World} {c : Call} {ms : List Micro} (h : CallR w c w' ms) {f mid k : Nat} {md : Mode}
    (ho : w'.objs[f]? = some (.send md mid (.waiting k))) : ∃ md0, w.objs[f]? = some (.send md0 mid (.waiting k)) ∧
      (md = md0 ∨ md0 = .ret ∧ md = .detached) := by
  cases h
  case detach f' mid st h1 =>
    rcases set_cases ho with ⟨rfl, h⟩ | h
    · simp at h; obtain ⟨rfl, rfl, rfl⟩ := h; exact ⟨_, h1, by simp⟩
    · exact ⟨_, h.2, .inl rfl⟩
  case next b h1 h2 =>
    simp at ho
    rcases append_cases ho with h | ⟨-, h⟩
    · exact ⟨_, h.2, .inl rfl⟩
    · simp at h
  all_goals first
    | exact ⟨_, ho, .inl rfl⟩
    | (rcases set_cases ho with ⟨rfl, h⟩ | h
       · simp at h
       · exact ⟨_, h.2, .inl rfl⟩)
    | (rcases append_cases ho with h | ⟨-, h⟩
       · exact ⟨_, h.2, .inl rfl⟩
       · simp at h)

theorem callR_wsEq {w w' : World} {c : Call} {ms : List Micro} (h : CallR w c w' ms) : w'.ws = w.ws := by
  cases h <;> simp

theorem wsId_reachable {cap : Option Nat} {s : Sys} (h : Reachable cap s) : WsId s := by
  refine Reachable.inv (P := WsId) ?_ ?_ ?_ h
  · exact ⟨fun _ h => by simp [init] at h, fun _ _ h => by simp [init] at h⟩
  · intro s c w' ms hr ih hc
    refine ⟨fun {f mid h md wk m} h1 h2 => ?_, fun {ms' f mid h wk' md wk m} h1 h2 h3 => ?_⟩
    · obtain ⟨md0, h3, -⟩ := callR_waiting hc h1
      simp only [callR_wsEq hc] at h2
      exact ih.obj h3 h2
    · simp only [callR_wsEq hc] at h3
      simp at h1
      rcases h1 with h1 | rfl
      · exact ih.th h1 h2 h3
      · exact ih.obj (callR_pollWs hc h2).1 h3
  · intro s t mc rest w' ms hr ih ht he
    have hown := own_reachable hr
    have hreg := regWs_reachable hr
    have hmem : mc :: rest ∈ s.th := List.mem_of_getElem? ht
    have objC : ∀ {f mid h : Nat} {md : Mode} {wk : Option Nat} {m : Msg}, s.w.objs[f]? = some (.send md mid (.waiting h)) →
      w'.ws[h]? = some (.active wk m) → m.id = mid := by
      intro f mid h md wk m h1 h2
      obtain ⟨⟨x, hx, -⟩, -⟩ := owns_ws hown h1
      rcases execR_wsBack he hreg h2 with ⟨wk', h3⟩ | ⟨h3, -⟩
      · exact ih.obj h1 h3
      · rw [hx] at h3; simp at h3
    have thC : ∀ {ms : List Micro} {f mid h wk' : Nat} {md : Mode} {wk : Option Nat} {m : Msg}, ms ∈ s.th →
      Micro.pollWs f md mid h wk' ∈ ms → w'.ws[h]? = some (.active wk m) → m.id = mid := by
      intro ms f mid h wk' md wk m h1 h2 h3
      obtain ⟨x, hx⟩ := th_ws hown h1 h2
      rcases execR_wsBack he hreg h3 with ⟨wk', h4⟩ | ⟨h4, -⟩
      · exact ih.th h1 h2 h4
      · rw [hx] at h4; simp at h4
    refine ⟨fun {f mid h md wk m} h1 h2 => ?_, fun {ms' f mid h wk' md wk m} h1 h2 h3 => ?_⟩
    · rcases execR_objEvo he h1 with h3 | ⟨-, h3 | ⟨md', mid', h', wk', m', wk'', rfl, h4, -⟩ | ⟨_, _, _, h4, -⟩ | ⟨_, _, _, _, h4, -⟩ |
        ⟨_, _, _, _, _, h4, -⟩ | ⟨_, _, h4, -⟩⟩
      · exact objC h3 h2
      · simp [Obj.inert] at h3
      · simp at h4; obtain ⟨rfl, rfl, rfl⟩ := h4
        exact thC hmem (List.mem_cons_self ..) h2
      all_goals simp at h4
    · rcases mem_set_cases h1 with h1 | rfl
      · exact thC h1 h2 h3
      · rw [List.mem_append] at h2
        rcases h2 with h2 | h2
        · have : ∃ f md m rc wk, mc = .sendCrit f md m rc wk := by
            cases he <;> simp at h2 <;> exact ⟨_, _, _, _, _, rfl⟩
          obtain ⟨f1, md1, m1, rc1, wk1, rfl⟩ := this
          rcases execR_wsBack he hreg h3 with ⟨wk', h4⟩ | ⟨h4, f2, md2, rc2, wk2, h5, h6⟩
          · exfalso
            have hlt := (List.getElem?_eq_some_iff.mp h4).1
            cases he <;> simp at h2 <;> omega
          · subst h6; simp at h2; exact h2.2.2.1.symm
        · exact thC hmem (List.mem_cons_of_mem _ h2) h3

/-- The object on which a call is made (`flipLag` is not a call on an object). -/
def Call.target : Call → Option Nat
  | .flipLag => none
  | .cloneAddr i | .downgrade i | .asEither i | .upgrade i | .dropAddr i | .isConnected i | .isConnectedStale i | .len i | .send i
  | .broadcast i | .setPrio i _ | .detach i | .pollSend i _ | .pollSendStale i _ | .dropSend i | .pollReply i _ | .dropReply i
  | .cloneMailbox i | .address i | .next i | .dropMailbox i | .pollRecv i _ | .dropRecv i | .dropMessage i
  | .dispatch i | .stopSelf i | .stopAll i | .finish i _ | .dropDispatch i | .join i | .joinStale i | .pollJoin i _ | .dropJoin i => some i

/-- A call changes no existing object but its target. -/
theorem callR_keeps {w w' : World} {c : Call} {ms : List Micro} (h : CallR w c w' ms) {f : Nat} {o : Obj}
    (hf : c.target ≠ some f) (ho : w.objs[f]? = some o) : w'.objs[f]? = some o := by
  have hl := (List.getElem?_eq_some_iff.mp ho).1
  cases h
  case flipLag => exact ho
  all_goals
    simp only [Call.target, ne_eq, Option.some.injEq] at hf
    simp [World.setObj, World.addObj, World.ev, List.getElem?_set_ne hf, List.getElem?_append_left hl, ho]

/-- A step changes no object but the one its call works on. -/
theorem execR_keeps {w w' : World} {mc : Micro} {ms : List Micro} (h : ExecR w mc w' ms) {f : Nat} {o : Obj}
    (hf : mc.slot ≠ some f) (ho : w.objs[f]? = some o) : w'.objs[f]? = some o := by
  cases h
  case recv_all hp _ _ =>
    simp [Micro.slot] at hf; simp [World.popBroadcast_objs hp, List.getElem?_set_ne hf, ho]
  case recv_one hp _ _ =>
    simp [Micro.slot] at hf; simp [World.popUnicast_objs hp, List.getElem?_set_ne hf, ho]
  case recvBcast_some hp =>
    simp [Micro.slot] at hf; simp [World.popBroadcast_objs hp, List.getElem?_set_ne hf, ho]
  all_goals first
    | exact ho
    | (simp [ho]; done)
    | (simp [Micro.slot] at hf; simp [World.setObj, World.ev, List.getElem?_set_ne hf, ho]; done)

/-- The queue in which a parked sender is registered. -/
theorem parked_reg {cap : Option Nat} {s : Sys} (h : Reachable cap s) {f mid k : Nat} {md : Mode} {wk : Option Nat} {m : Msg}
    (h1 : s.w.objs[f]? = some (.send md mid (.waiting k))) (h2 : s.w.ws[k]? = some (.active wk m)) :
    (md ≠ .bcast → k ∈ s.w.wOne) ∧ (md = .bcast → k ∈ s.w.wAll) := by
  have kI := kInv_reachable h
  have hid := (wsId_reachable h).obj h1 h2
  have ok : okO s.w.log f (.send md mid (.waiting k)) := kI.kw.objs _ _ h1
  have hr := (regWs_reachable h).reg h2
  constructor
  · intro hmd
    rcases hr with hr | hr
    · exact hr
    · obtain ⟨⟨f', hf'⟩, -⟩ := kI.kw.all _ hr _ _ h2
      have := (kI.uniq _ _ _ _ _ _ ok.1 hf').2 hid.symm
      cases md <;> simp_all [Mode.isB]
  · rintro rfl
    rcases hr with hr | hr
    · obtain ⟨⟨f', hf'⟩, -⟩ := kI.kw.one _ hr _ _ h2
      have := (kI.uniq _ _ _ _ _ _ ok.1 hf').2 hid.symm
      simp_all [Mode.isB]
    · exact hr

end Xtra
