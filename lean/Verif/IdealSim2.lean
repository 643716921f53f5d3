import Verif.IdealParts
/-! The simulation, continued: the critical sections of sending, and the end of the channel. -/

set_option linter.unusedSimpArgs false

namespace Xtra.Ideal
open Xtra

section
variable {cap : Option Nat} {w w' : World} {th : List (List Micro)} {t : Nat} {mc : Micro}
variable {rest ms : List Micro} {g : Ghost}

theorem answer_bcast (hr : Reachable cap ⟨w, th⟩) {f i : Nat} (h : Ev.made f i true ∈ w.log) : answers w.resp i = .none := by
  have := ((kInv_reachable hr).made f i true h).2.2.mpr rfl
  exact answers_at this

theorem answer_one (hr : Reachable cap ⟨w, th⟩) {f i : Nat} (h : Ev.made f i false ∈ w.log) : answers w.resp i ≠ .none := by
  obtain ⟨-, hl, hn⟩ := (kInv_reachable hr).made f i false h
  have hl : i < w.resp.length := hl
  have hn : ¬ (w.resp[i]? = some .none) := fun h => by simpa using hn.mp h
  have hx := List.getElem?_eq_getElem hl
  rw [answers_at hx]
  rw [hx] at hn
  cases hh : w.resp[i] <;> simp_all [ofResp]

theorem noB {md : Mode} (h : md ≠ .bcast) : md.isB = false := by cases md <;> simp_all [Mode.isB]

theorem exec_sim_crit (hr : Reachable cap ⟨w, th⟩) (i : GInv w th g) {f : Nat} {md : Mode} {m : Msg} {rc : Rc} {wk : Nat}
    (ht : th[t]? = some (.sendCrit f md m rc wk :: rest)) (he : ExecR w (.sendCrit f md m rc wk) w' ms) :
    Sim w th g w' (th.set t (ms ++ rest)) := by
  have hk : okNew w.log f md m := (kInv_reachable hr).th _ (List.mem_of_getElem? ht) (.sendCrit f md m rc wk) (by simp)
  have r : RegWs w.ws w.wOne w.wAll := regWs_reachable hr
  have hpos : (abs w th g).draft m ≠ 0 := bag_pos ht (by simp [draftM, m1])
  cases he
  case critAll_park h =>
    refine ⟨_, (i.ticket hr m.id).execSame ht (by simp [okM, put]) rfl, ?_⟩
    exact .to (.parkAll (m := m) (h := w.ws.length) hpos (answer_bcast hr hk.1)
      (fun hh => by rw [(roomAll_iff w th g).mp hh] at h; simp at h) (tickets_free ..))
      (abs_is (draft := (bag_del ht (fun x => by bagsum)).symm) (ticket := (tickets_parkAll ..).symm) (hist := (hist_late ..).symm))
  case critAll_sent h =>
    have ob : BqsOk w := bqsOk_reachable hr
    refine ⟨_, (i.know m.id).execSame ht (by simp [okM, put]) rfl, ?_⟩
    exact .to (.submitAll (m := m) hpos (answer_bcast hr hk.1) ((roomAll_iff w th g).mpr h)
      (deliver_is (w := { w with log := w.lateLog m }) (ob.congr rfl rfl) rfl rfl rfl rfl rfl))
      (abs_is (draft := (bag_del ht (fun x => by bagsum)).symm) (hist := by simp only [World.sendBroadcast, abs]; rw [List.filter_cons_of_pos (by rfl), hist_late]))
  case critOne_hand pre c rest' wk' hq hp hc hmd =>
    have hn : c ∉ rest' := by
      have := (rxSorted_reachable hr).sorted
      have : List.Pairwise (· < ·) w.wRx := this
      rw [hq, List.pairwise_append, List.pairwise_cons] at this
      intro hm; have := this.2.1.1 c hm; omega
    have hidle := idle_hand (k := .newMessage m) hp hc hn
    rw [← hq] at hidle
    have hk1 : Ev.made f m.id false ∈ w.log := by have := hk.1; rwa [noB hmd] at this
    refine ⟨_, (i.know m.id).execSame ht (by simp [okM, put]) rfl, ?_⟩
    exact .to (.submit (m := m) hpos (answer_one hr hk1) (.inl (by rw [show (abs w th g).idle = _ from hidle]; simp)) (.hand hidle))
      (abs_is (draft := (bag_del ht (fun x => by bagsum)).symm) (seat := (seats_set hc (.full (.newMessage m) wk')).symm) (hist := (hist_late ..).symm))
  case critOne_park hq h hmd =>
    have hk1 : Ev.made f m.id false ∈ w.log := by have := hk.1; rwa [noB hmd] at this
    have hidle := idle_noneEmpty hq
    refine ⟨_, (i.ticket hr m.id).execSame ht (by simp [okM, put]) rfl, ?_⟩
    exact .to (.park (m := m) (h := w.ws.length) hpos (answer_one hr hk1) hidle
      (fun hh => by rw [(roomOne_iff w th g).mp hh] at h; simp at h) (tickets_free ..))
      (abs_is (draft := (bag_del ht (fun x => by bagsum)).symm)
        (ticket := (tickets_parkOne (fun h => by have := regOk_lt r.all h; omega) m).symm)
        (idle := hidle) (hist := (hist_late ..).symm))
  case critOne_queue hq h hmd =>
    have hk1 : Ev.made f m.id false ∈ w.log := by have := hk.1; rwa [noB hmd] at this
    have hidle := idle_noneEmpty hq
    refine ⟨_, (i.know m.id).execSame ht (by simp [okM, put]) rfl, ?_⟩
    exact .to (.submit (m := m) hpos (answer_one hr hk1) (.inr ((roomOne_iff w th g).mpr h)) (.store hidle (Heap.push_perm Msg.le w.uq m)))
      (abs_is (draft := (bag_del ht (fun x => by bagsum)).symm) (idle := hidle) (hist := (hist_late ..).symm))

theorem sumBy_dropped (a : Nat) (ds : List Nat) : sumBy (eAll a) (ds.map .dropped) = ds.count a := by
  induction ds with
  | nil => simp
  | cons d ds ih => simp [List.count_cons, eAll, n1, ih]; omega

/-- `stop_all` holds a strong reference while it broadcasts. -/
theorem bcastShutdown_rest (hr : Reachable cap ⟨w, th⟩) : ∀ x ∈ th, Micro.bcastShutdown ∈ x → x = [.bcastShutdown, .dropTx .strong] := by
  have key : ∀ s, Reachable cap s → ∀ x ∈ s.th, Micro.bcastShutdown ∈ x → x = [.bcastShutdown, .dropTx .strong] := by
    intro s hs
    refine Reachable.inv (P := fun s => ∀ x ∈ s.th, Micro.bcastShutdown ∈ x → x = [.bcastShutdown, .dropTx .strong]) ?_ ?_ ?_ hs
    · simp [init]
    · intro s c w' ms _ ih hc x hx hm
      rcases List.mem_append.mp hx with h | h
      · exact ih x h hm
      · simp at h; subst h
        cases hc <;> simp at hm ⊢
    · intro s t m rest w' ms _ ih ht he x hx hm
      rcases List.mem_or_eq_of_mem_set hx with h | rfl
      · exact ih x h hm
      · exfalso
        rcases List.mem_append.mp hm with h | h
        · cases he <;> simp at h
        · have := ih _ (List.mem_of_getElem? ht) (by simp [h])
          injection this with h1 h2
          rw [h2] at h; simp at h
  exact key _ hr

theorem exec_sim_end (hr : Reachable cap ⟨w, th⟩) (i : GInv w th g) (ht : th[t]? = some (mc :: rest))
    (he : ExecR w mc w' ms) (hm : (∃ rc, mc = .dropTx rc) ∨ mc = .shutRx ∨ (∃ c, mc = .notifyShut c) ∨ mc = .dropRx ∨
      mc = .shutTx ∨ (∃ b, mc = .dropBq b) ∨ (∃ am, mc = .discard am) ∨ (∃ b am r brk, mc = .respond b am r brk) ∨
      (∃ o, mc = .newBq o) ∨ mc = .bcastShutdown ∨ (∃ k, mc = .conn1 k ∨ mc = .conn2 k) ∨ (∃ o l, mc = .join1 o l ∨ mc = .join2 o l)) :
    Sim w th g w' (th.set t (ms ++ rest)) := by
  have hwf := wf_reachable hr ht
  have hmem := List.mem_of_getElem? ht
  cases he
  case dropTx_last rc hrc h1 =>
    refine ⟨g, i.execSame ht (by simp [okM]) rfl, .to (.release ?_) abs_is⟩
    show w.sc ≠ 0
    omega
  case dropTx_more rc hrc h1 =>
    refine ⟨g, i.execSame ht (by simp [okM]) rfl, .to (.release ?_) abs_is⟩
    have h2 := sc_reachable hr
    have h3 := tot_head mStrong ht
    have h4 : 0 < mStrong (.dropTx rc) := by cases rc <;> simp_all [mStrong, Rc.cnt, Rc.isStrong]
    show w.sc ≠ 0
    simp only at *; omega
  case dropTx_weak rc hrc => exact ⟨g, i.execSame ht (by simp [okM]) rfl, .stay abs_is⟩
  case shutRx =>
    refine ⟨g, i.execSame ht (by simp [okM]) rfl, .to (.dismiss ?_) ?_⟩
    · have h3 := tot_head mShutRx ht
      exact shutRx_pending hr (by simp [mShutRx] at h3; simp only; omega)
    · have : ∀ (f : Msg → Micro → Nat), (∀ x c, f x (.notifyShut c) = 0) → ∀ x (q : List Nat), sumBy (f x) (q.map .notifyShut) = 0 := by
        intro f hf x q; induction q <;> simp_all
      exact abs_is (draft := (bag_same ht (fun x => by rw [this _ (by intros; rfl)]; rfl)).symm)
        (limbo := (bag_same ht (fun x => by rw [this _ (by intros; rfl)]; rfl)).symm)
        (held := (bag_same ht (fun x => by rw [this _ (by intros; rfl)]; rfl)).symm)
  case notifyShut c =>
    refine ⟨g, i.execSame ht (by simp [okM]) rfl, ?_⟩
    by_cases he : isEmpty w.cells c = true
    · have hsc : w.sc = 0 := (iInv_reachable hr).ns _ hmem c (by simp)
      have h1 := reg1_reachable hr c
      have h2 := tot_head (mNs c) ht
      obtain ⟨wk, hc⟩ := isEmpty_iff.mp he
      have hcnt : c ∉ w.wRx := by
        intro hh
        have := List.count_pos_iff.mpr hh
        have h1 : Reg1 w.cells w.wRx c (tot (mNs c) th) := h1
        simp [Reg1, emptyL, goneL, hc, mNs] at h1 h2
        omega
      refine .to (.tell (c := c) hsc (isEmpty_seat.mp he) (fun h => hcnt (List.mem_filter.mp h).1)) (abs_is (seat := ?_) (idle := ?_))
      · rw [seats_notify, if_pos he]; rfl
      · show w.wRx.filter (isEmpty w.cells) = w.wRx.filter (isEmpty (notifyCell w.cells c .shutdown))
        apply List.filter_congr
        intro k hk
        rw [isEmpty_notify]
        have : k ≠ c := by rintro rfl; exact hcnt hk
        simp [this]
    · have : notifyCell w.cells c .shutdown = w.cells := by
        unfold notifyCell
        split
        · rename_i wk hc; exact absurd (isEmpty_iff.mpr ⟨wk, hc⟩) he
        · rfl
      exact .stay (abs_is (seat := by simp only [this]; rfl) (idle := by simp only [this]; rfl))
  case dropRx_last h1 =>
    refine ⟨g, i.execSame ht (by simp [okM]) rfl, .to (.leave ?_) abs_is⟩
    show w.rcv ≠ 0
    omega
  case dropRx_more h1 =>
    refine ⟨g, i.execSame ht (by simp [okM]) rfl, .to (.leave ?_) abs_is⟩
    have h2 := rcv_reachable hr
    have h3 := tot_head mRcv ht
    show w.rcv ≠ 0
    simp [mRcv] at h3
    simp only at *; omega
  case shutTx =>
    have r : RegWs w.ws w.wOne w.wAll := regWs_reachable hr
    have h0 : w.rcv = 0 := shutTx_rcv hr _ hmem (by simp)
    obtain ⟨ds, hk, hds⟩ := killed_shut r
    refine ⟨g, i.execSame ht (by simp [okM]) (by simp), ?_⟩
    have hs : Reachable cap ⟨w.shutTx, th.set t rest⟩ := by
      refine Reachable.step (a := .exec t) hr ?_
      simp [Sys.step, ht, exec]
    have hnd : ds.Nodup := by
      rw [List.nodup_iff_count]
      intro a
      have h1 := held_reachable hs a
      have h2 : sumBy (eAll a) w.shutTx.log = ds.count a + sumBy (eAll a) w.log := by
        rw [hk.1, sumBy_append, sumBy_dropped]
      simp only [World.held, created] at h1
      split at h1 <;> omega
    have hw : ∀ j, (abs w th g).waits j ↔ j ∈ ds := fun j => (hds j).symm
    refine .to (.close (a := answers w.shutTx.resp) (ds := ds) h0 (fun j hj => ?_) (fun j hj => ?_) hnd (fun j => (hw j).symm)) ?_
    · rw [hk.2, if_pos ((hw j).mp hj)]; rfl
    · rw [hk.2, if_neg (fun h => hj ((hw j).mpr h))]; rfl
    · refine abs_is (ticket := (tickets_shut r).symm) (hist := ?_) (next := (shutTx_resplen w).symm) (box := ?_)
      · funext b; simp [World.items, abs]
      · rw [hk.1]
        simp only [abs, List.filter_append]
        congr 1
        rw [List.filter_eq_self.mpr]
        intro e he
        obtain ⟨j, -, rfl⟩ := List.mem_map.mp he; rfl
  case dropBq b =>
    refine ⟨g, i.execSame ht (by simp [okM]) (by simp), ?_⟩
    by_cases h1 : w.refs b ≤ 1
    · have e1 : (w.decBq b).items = put w.items b [] := by
        funext k
        simp only [decBq_items, put]
        by_cases hk : k = b <;> simp [hk, h1]
      have e2 : (w.decBq b).bqs.filter (w.decBq b).alive = (w.bqs.filter w.alive).filter (· ≠ b) := by
        simp only [World.decBq_bqs, List.filter_filter]
        apply List.filter_congr
        intro k _
        have := alive_iff (w.decBq b) k
        have h2 := alive_iff w k
        rw [decBq_refs] at this
        by_cases hk : k = b
        · subst hk; simp at this ⊢; cases h : (w.decBq k).alive k <;> simp_all
        · simp [hk] at this ⊢; cases h : (w.decBq b).alive k <;> cases h' : w.alive k <;> simp_all
      exact .to (.closeBox (b := b)) (abs_is (live := e2.symm) (box := e1.symm))
    · have e1 : (w.decBq b).items = w.items := by
        funext k
        simp only [decBq_items]
        by_cases hk : k = b <;> simp [hk, h1]
      have e2 : (w.decBq b).bqs.filter (w.decBq b).alive = w.bqs.filter w.alive := by
        simp only [World.decBq_bqs]
        apply List.filter_congr
        intro k _
        have := alive_iff (w.decBq b) k
        have h2 := alive_iff w k
        rw [decBq_refs] at this
        by_cases hk : k = b
        · subst hk; simp at this
          have h3 : 0 < w.refs k := by omega
          have h4 : 1 < w.refs k := by omega
          have h5 : (w.decBq k).alive k = true := this.mpr (by omega)
          rw [h5, h2.mpr h3]
        · simp [hk] at this; cases h : (w.decBq b).alive k <;> cases h' : w.alive k <;> simp_all
      exact .stay (abs_is (live := e2.symm) (box := e1.symm))
  case discard_one m =>
    refine ⟨g, i.execSame ht (by simp) rfl, ?_⟩
    exact .to (.discarded (m := m) (bag_pos ht (by simp [heldM, am1, m1])))
      (abs_is (held := (bag_del ht (fun x => by bagsum)).symm) (answer := (answers_interrupt w.resp m.id).symm))
  case discard_other am h =>
    refine ⟨g, i.execSame ht (by simp) rfl, .stay ?_⟩
    cases am with
    | one m => exact absurd rfl (h m)
    | _ => exact abs_is
  case respond_one b m r brk =>
    refine ⟨g, i.execSame ht (by simp) rfl, ?_⟩
    exact .to (.handled (m := m) (r := r) (bag_pos ht (by simp [heldM, am1, m1])))
      (abs_is (held := (bag_del ht (fun x => by bagsum)).symm) (answer := (answers_fulfil w.resp m.id r).symm))
  case respond_other b am r brk h =>
    refine ⟨g, i.execSame ht (by simp) rfl, .stay ?_⟩
    cases am with
    | one m => exact absurd rfl (h m)
    | _ => exact abs_is
  case newBq o =>
    have hb : w.objs[o]? = some .busy := hwf
    have ob : BqsOk w := bqsOk_reachable hr
    refine ⟨g, i.execSet ht (by simp) (f := o) (o := .mailbox w.bq.length) rfl trivial, ?_⟩
    have hnew : ∀ k ≠ w.bq.length, (w.bq ++ [(⟨1, []⟩ : BQ)])[k]? = w.bq[k]? := by
      intro k hk
      by_cases h : k < w.bq.length
      · exact List.getElem?_append_left h
      · rw [List.getElem?_eq_none (by simp; omega), List.getElem?_eq_none (by omega)]
    refine .to (.openBox (b := w.bq.length) (fun h => ?_) ?_) (abs_is (box := ?_) (live := ?_))
    · have := ob.lt _ (List.mem_filter.mp h).1; omega
    · simp [abs, World.items]
    · funext k
      simp only [abs, World.items]
      by_cases hk : k = w.bq.length
      · subst hk; simp
      · rw [hnew k hk]
    · simp only [abs, List.filter_append]
      have e1 : w.bqs.filter w.alive = w.bqs.filter ({ w with bq := w.bq ++ [⟨1, []⟩], bqs := w.bqs ++ [w.bq.length], objs := w.objs.set o (.mailbox w.bq.length) } : World).alive := by
        apply List.filter_congr
        intro k hk
        have := ob.lt k hk
        refine (alive_congr ?_).symm
        unfold World.refs
        simp only []
        rw [hnew k (by omega)]
      rw [← e1]
      congr 1
      symm
      rw [List.filter_eq_self]
      intro k hk
      simp at hk; subst hk
      rw [alive_iff]; simp [World.refs]
  case bcastShutdown =>
    have ob : BqsOk w := bqsOk_reachable hr
    refine ⟨g, i.execSame ht (by simp) rfl, ?_⟩
    have hsc : w.sc ≠ 0 := by
      have h1 := bcastShutdown_rest hr _ hmem (by simp)
      have h2 := sc_reachable hr
      have h3 := le_sumBy (sumBy mStrong) ht
      have h4 : tot mStrong th = sumBy (sumBy mStrong) th := rfl
      rw [h1] at h3
      simp [mStrong, Rc.cnt] at h3
      simp only at h2; omega
    refine .to (.stopAll hsc (deliver_is (w := { w with resp := w.resp ++ [Resp.none] }) (ob.congr rfl rfl) rfl rfl rfl rfl rfl)) (abs_is (answer := ?_))
    simp only [abs, World.sendBroadcast_resp]
    exact (tab_append (l := w.resp) (x := Resp.none)).symm
  case join1_no o l h =>
    have hb : w.objs[o]? = some .busy := hwf
    exact ⟨g, i.execSet ht (by simp) (f := o) (o := .join none) rfl trivial, .stay abs_is⟩
  case join2_no o l h =>
    have hb : w.objs[o]? = some .busy := hwf
    exact ⟨g, i.execSet ht (by simp) (f := o) (o := .join none) rfl trivial, .stay abs_is⟩
  case join2_yes o l h =>
    have hb : w.objs[o]? = some .busy := hwf
    exact ⟨g, i.execSet ht (by simp) (f := o) (o := .join (some l)) rfl trivial, .stay abs_is⟩
  case join1_yes o l h => exact ⟨g, i.execSame ht (by simp [okM]) rfl, .stay abs_is⟩
  case conn1_no => exact ⟨g, i.execSame ht (by simp [okM]) rfl, .stay abs_is⟩
  case conn1_yes => exact ⟨g, i.execSame ht (by simp [okM]) rfl, .stay abs_is⟩
  case conn2 => exact ⟨g, i.execSame ht (by simp [okM]) rfl, .stay abs_is⟩
  all_goals (exfalso; simp at hm)

end
end Xtra.Ideal
