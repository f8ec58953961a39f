import Verif.Model.Estimator
import Verif.Props.IncProblem

namespace Verif
variable {V F M : Type _}

namespace EWorld
/-- The estimator's problem, the batches and the heap as a world of the incremental problem. -/
def toWorld (w : EWorld V F M) : World V := ⟨w.B, w.est.inc, w.heap⟩
end EWorld

/-! ### swapping the marginalised group to the back -/

theorem swapBack_eq (m x : GroupId) (a c : List GroupId) (h : m ∉ a) :
    swapBack m (a ++ m :: (c ++ [x])) = a ++ x :: (c ++ [m]) := by
  have hidx : (a ++ m :: (c ++ [x])).idxOf m = a.length := by
    rw [List.idxOf_append_of_notMem h]; simp
  have hl : (a ++ m :: (c ++ [x])).getLastD m = x := by
    rw [List.getLastD_eq_getLast?]
    rw [show a ++ m :: (c ++ [x]) = (a ++ m :: c) ++ [x] by simp, List.getLast?_append]
    simp
  unfold swapBack
  rw [hidx, hl]
  rw [List.set_append_right _ _ (by omega)]
  simp only [Nat.sub_self, List.set_cons_zero, List.length_append, List.length_cons, List.length_nil]
  rw [List.set_append_right _ _ (by omega)]
  congr 1
  rw [show a.length + (c.length + (0 + 1) + 1) - 1 - a.length = c.length + 1 by omega]
  rw [List.set_cons_succ, List.set_append_right _ _ (by omega)]
  simp

theorem split_at {m : GroupId} {o : List GroupId} (h : m ∈ o) : ∃ a c, o = a ++ m :: c ∧ m ∉ a := by
  induction o with
  | nil => simp at h
  | cons x o ih =>
    by_cases hx : x = m
    · subst hx; exact ⟨[], o, rfl, by simp⟩
    · have : m ∈ o := by simpa [Ne.symm hx] using h
      obtain ⟨a, c, rfl, ha⟩ := ih this
      exact ⟨x :: a, c, rfl, by simp [ha, Ne.symm hx]⟩

theorem swapBack_spec {m : GroupId} {o : List GroupId} (h : m ∈ o) (hl : o.getLast? ≠ some m) :
    ∃ a x c, o = a ++ m :: (c ++ [x]) ∧ m ∉ a ∧ swapBack m o = a ++ x :: (c ++ [m]) := by
  obtain ⟨a, c, rfl, ha⟩ := split_at h
  rcases List.eq_nil_or_concat c with rfl | ⟨c, x, rfl⟩
  · exact absurd (by simp) hl
  · exact ⟨a, x, c, by simp, ha, by rw [List.concat_eq_append]; exact swapBack_eq m x a c ha⟩

/-- The ordering `orderMarginalizedDesignVariables` produces. -/
def margLast (m : GroupId) (o : List GroupId) : List GroupId := if o.getLast? = some m then o else swapBack m o

theorem margLast_perm {m : GroupId} {o : List GroupId} (h : m ∈ o) : (margLast m o).Perm o := by
  unfold margLast
  split
  · exact List.Perm.refl _
  · rename_i hl
    obtain ⟨a, x, c, rfl, -, h2⟩ := swapBack_spec h hl
    rw [h2]
    refine List.Perm.append_left a ?_
    calc x :: (c ++ [m]) |>.Perm (c ++ [m] ++ [x]) := (List.perm_append_singleton _ _).symm
      _ = c ++ ([m] ++ [x]) := by simp
      List.Perm _ ([m] ++ (c ++ [x])) := by
        rw [← List.append_assoc, ← List.append_assoc]
        exact List.Perm.append_right _ List.perm_append_comm

theorem margLast_last {m : GroupId} {o : List GroupId} (h : m ∈ o) : (margLast m o).getLast? = some m := by
  unfold margLast
  split
  · assumption
  · rename_i hl
    obtain ⟨a, x, c, rfl, -, h2⟩ := swapBack_spec h hl
    rw [h2, show a ++ x :: (c ++ [m]) = (a ++ x :: c) ++ [m] by simp, List.getLast?_append]
    simp

/-- Dropping the groups that came in gives back the ordering. -/
theorem margLast_filter {m : GroupId} {O N : List GroupId} (hn : (O ++ N).Nodup) (hm : m ∈ O ++ N)
    (hl : m ∈ O → O.getLast? = some m) : (margLast m (O ++ N)).filter (fun g => decide (g ∈ O)) = O := by
  have hO : O.filter (fun g => decide (g ∈ O)) = O := List.filter_eq_self.2 (by simp)
  have hdis : ∀ g ∈ N, g ∉ O := fun g hg hg' => (List.disjoint_of_nodup_append hn) hg' hg
  have hN : ∀ l : List GroupId, (∀ g ∈ l, g ∈ N) → l.filter (fun g => decide (g ∈ O)) = [] := by
    intro l h; rw [List.filter_eq_nil_iff]; intro g hg; simpa using hdis g (h g hg)
  unfold margLast
  split
  · rw [List.filter_append, hO, hN N (fun _ h => h), List.append_nil]
  · rename_i hnl
    by_cases hmO : m ∈ O
    · obtain ⟨O', rfl⟩ : ∃ O', O = O' ++ [m] := by
        have := hl hmO
        rcases List.eq_nil_or_concat O with rfl | ⟨O', x, rfl⟩
        · simp at hmO
        · rw [List.concat_eq_append] at this ⊢
          rw [List.getLast?_append] at this
          simp at this
          exact ⟨O', by rw [this]⟩
      rcases List.eq_nil_or_concat N with rfl | ⟨N', x, rfl⟩
      · exact absurd (by simp) hnl
      · have hmO' : m ∉ O' := by
          have := (List.nodup_append.1 hn).1
          intro h
          exact (List.disjoint_of_nodup_append this) h (by simp)
        rw [List.concat_eq_append, show O' ++ [m] ++ (N' ++ [x]) = O' ++ m :: (N' ++ [x]) by simp,
          swapBack_eq m x O' N' hmO']
        rw [show O' ++ x :: (N' ++ [m]) = O' ++ (x :: N') ++ [m] by simp, List.filter_append, List.filter_append,
          hN (x :: N') (by intro g hg; simp at hg ⊢; tauto)]
        rw [List.append_nil, ← List.filter_append]
        exact hO
    · have hmN : m ∈ N := by simpa [hmO] using hm
      obtain ⟨a, c, rfl, ha⟩ := split_at hmN
      rcases List.eq_nil_or_concat c with rfl | ⟨c, x, rfl⟩
      · exact absurd (by rw [← List.append_assoc, List.getLast?_append]; simp) hnl
      · rw [List.concat_eq_append, ← List.append_assoc,
          swapBack_eq m x (O ++ a) c (by simp [hmO, ha])]
        rw [List.append_assoc, List.filter_append, hO, hN, List.append_nil]
        intro g hg; simp at hg ⊢; tauto

/-! ### invariants -/

theorem WInv.heapParams {w : World V} (hw : WInv w) {h' : Heap V} (he : h'.etDVs = w.heap.etDVs) :
    WInv { w with heap := h' } :=
  ⟨fun b => (hw.batches b).heap he, hw.nd, hw.g, hw.zero, hw.some, hw.et, hw.bkn, hw.len⟩

/-- The marginalisation index. -/
def margIndex (w : World V) (m : GroupId) : Nat :=
  activeDim w.heap (enumDV w.inc.groups (w.inc.ordering.filter (fun g => decide (g ≠ m))))

/-- Invariant of the estimator. -/
structure EInv (w : EWorld V F M) : Prop where
  winv : WInv w.toWorld
  bk : ∀ d ∈ AL.keys w.est.inc.backup, d ∈ AL.keys w.est.inc.counts
  last : w.est.margGroup ∈ w.est.inc.ordering → w.est.inc.ordering.getLast? = some w.est.margGroup
  log : ∀ c ∈ w.est.calls, WInv ⟨c.B, c.inc, c.heap⟩ ∧ c.inc.ordering.getLast? = some w.est.margGroup ∧
    c.margStart = margIndex ⟨c.B, c.inc, c.heap⟩ w.est.margGroup

theorem EInv.init (D : Dbl F) (mo : F) (m0 : M) (g : GroupId) (o : EstOptions F) (h : Heap V) :
    EInv (⟨fun _ => OptProblem.empty, h, Estimator.construct D mo m0 g o⟩ : EWorld V F M) where
  winv := WInv.init h
  bk := by simp [Estimator.construct, IncProblem.empty, AL.keys]
  last := by simp [Estimator.construct, IncProblem.empty]
  log := by simp [Estimator.construct]

theorem orderMarginalized_eq {w : EWorld V F M} (hw : WInv w.toWorld) :
    w.orderMarginalized = if w.est.margGroup ∈ w.est.inc.ordering then
        .ok () (w.setInc { w.est.inc with ordering := margLast w.est.margGroup w.est.inc.ordering })
      else .throw .invalidOperation w := by
  unfold EWorld.orderMarginalized
  by_cases hm : w.est.margGroup ∈ w.est.inc.ordering
  · simp only [hm, if_true]
    by_cases hl : w.est.inc.ordering.getLast? = some w.est.margGroup
    · simp only [hl, ne_eq, not_true_eq_false, if_false, margLast, if_true]; rfl
    · have hp := margLast_perm hm
      rw [margLast, if_neg hl] at hp
      rcases inc_setOrdering_eq hw.g (swapBack w.est.margGroup w.est.inc.ordering) with ⟨-, h2⟩ | ⟨h1, -⟩
      · simp only [EWorld.toWorld] at h2
        simp only [hl, ne_eq, not_false_eq_true, if_true, h2, margLast, if_false]; rfl
      · exact absurd hp h1
  · simp [hm]

theorem WInv.setOrd {w : World V} (hw : WInv w) {o : List GroupId} (ho : o.Perm w.inc.ordering) :
    WInv { w with inc := { w.inc with ordering := o } } :=
  ⟨hw.batches, hw.nd, hw.g.reorder ho, hw.zero, hw.some, hw.et, hw.bkn, hw.len⟩

theorem WInv.saved {w : World V} (hw : WInv w) : WInv { w with inc := w.inc.saveDesignVariables w.heap } :=
  ⟨hw.batches, hw.nd, hw.g, hw.zero, hw.some, hw.et, saveLoop_nodup _ _ _ hw.bkn, hw.len⟩

/-! ### dimensions -/

theorem getGroupDim_of {w : World V} (hw : WInv w) {g : GroupId} (hg : g ∈ w.inc.ordering) :
    IncProblem.getGroupDim w.heap w.inc g = .ok (activeDim w.heap ((AL.get g w.inc.groups).getD [])) () := by
  obtain ⟨l, hl⟩ := (AL.mem_keys_iff _ _).1 ((hw.g.ord g).1 hg)
  simp [IncProblem.getGroupDim, IncProblem.getGroup, hl, dimLoop_eq]

theorem sumDims_eq {w : World V} (hw : WInv w) (gs : List GroupId) (hs : ∀ g ∈ gs, g ∈ w.inc.ordering) (n : Nat) :
    EWorld.sumDims w.heap w.inc gs n = .ok (n + activeDim w.heap (enumDV w.inc.groups gs)) () := by
  induction gs generalizing n with
  | nil => simp [EWorld.sumDims, enumDV, activeDim]
  | cons g gs ih =>
    rw [EWorld.sumDims, getGroupDim_of hw (hs g (by simp))]
    simp only
    rw [ih (fun x hx => hs x (by simp [hx]))]
    congr 1
    rw [← sum_activeDim, ← sum_activeDim]
    simp; omega

theorem activeDim_append (h : Heap V) (a b : List DVId) : activeDim h (a ++ b) = activeDim h a + activeDim h b := by
  simp [activeDim]

theorem margIndex_add {w : World V} (hw : WInv w) {m : GroupId} (hm : m ∈ w.inc.ordering)
    : activeDim w.heap (enumDV w.inc.groups w.inc.ordering) =
      margIndex w m + activeDim w.heap ((AL.get m w.inc.groups).getD []) := by
  obtain ⟨a, c, h1, h2⟩ := split_at hm
  have hn := hw.g.nodupO
  have hc : m ∉ c := by
    rw [h1] at hn
    have := (List.nodup_append.1 hn).2.1
    exact (List.nodup_cons.1 this).1
  have hf : w.inc.ordering.filter (fun g => decide (g ≠ m)) = a ++ c := by
    rw [h1, List.filter_append, List.filter_cons]
    simp only [ne_eq, not_true_eq_false, decide_false, Bool.false_eq_true, if_false]
    congr 1
    · rw [List.filter_eq_self]; intro g hg; simpa using fun e : g = m => h2 (e ▸ hg)
    · rw [List.filter_eq_self]; intro g hg; simpa using fun e : g = m => hc (e ▸ hg)
  rw [margIndex, hf, h1]
  simp only [enumDV, List.flatMap_append, List.flatMap_cons, activeDim_append]
  omega

/-- The optimizer's input in a well-formed world. -/
def optInput (w : EWorld V F M) : OptInput V := ⟨w.B, w.est.inc, w.heap, margIndex w.toWorld w.est.margGroup⟩

/-- The world after the optimizer ran. -/
def afterOpt (w : EWorld V F M) (call : OptCall V F M) : EWorld V F M :=
  ⟨w.B, { w.heap with params := call.params },
    { w.est with layout := call.layout, calls := w.est.calls ++ [optInput w] }⟩

theorem runOptimizer_eq {w : EWorld V F M} (hw : WInv w.toWorld) (hm : w.est.margGroup ∈ w.est.inc.ordering)
    (oracle : OptInput V → OptCall V F M) :
    w.runOptimizer oracle = match (oracle (optInput w)).report with
      | some r => .ok (r.1, r.2, (oracle (optInput w)).marginal) (afterOpt w (oracle (optInput w)))
      | none => .throw .external (afterOpt w (oracle (optInput w))) := by
  have h1 := sumDims_eq hw w.est.inc.ordering (fun _ h => h) 0
  have h2 := getGroupDim_of hw hm
  have h3 := margIndex_add hw hm
  simp only [EWorld.toWorld] at h1 h2
  unfold EWorld.runOptimizer
  rw [h1, h2]
  simp only
  have h4 : EWorld.usub (0 + activeDim w.heap (enumDV w.est.inc.groups w.est.inc.ordering))
      (activeDim w.heap ((AL.get w.est.margGroup w.est.inc.groups).getD [])) =
      margIndex w.toWorld w.est.margGroup := by
    simp only [EWorld.toWorld] at h3 ⊢
    rw [EWorld.usub, if_pos (by omega)]
    omega
  rw [h4]
  rfl

/-! ### removing the batch just added -/

theorem remove_after {w w5 : World V} (hw : WInv w) {b : BatchId} (hnot : b ∉ w.inc.problems)
    (ha : Addable w.B w.inc (w.B b)) {q1 : IncProblem V} (hr : AddResult w b q1)
    (hB : w5.B = w.B) (hw5 : WInv w5) (hc5 : w5.inc.counts = q1.counts) (hg5 : w5.inc.groups = q1.groups)
    (hp5 : w5.inc.problems = q1.problems) :
    ∃ q2, w5.inc.remove w5.B (some b) = .ok () q2 ∧ WInv { w5 with inc := q2 } ∧
      q2.problems = w.inc.problems ∧ (∀ d, AL.get d q2.counts = AL.get d w.inc.counts) ∧
      (∀ g, AL.get g q2.groups = AL.get g w.inc.groups) ∧
      q2.ordering = w5.inc.ordering.filter (fun g => decide (g ∈ w.inc.ordering)) ∧
      (∀ d, AL.get d q2.backup = if d ∈ AL.keys (w.B b).lookup ∧ AL.get d w.inc.counts = none then none
        else AL.get d w5.inc.backup) := by
  have hfind : w5.inc.findProblem b = some w.inc.problems.length := by
    simp only [IncProblem.findProblem, hp5, hr.problems]
    rw [List.findIdx?_append]
    have : List.findIdx? (fun x => x == b) w.inc.problems = none := by
      rw [List.findIdx?_eq_none_iff]
      intro x hx
      simp only [beq_eq_false_iff_ne, ne_eq]
      rintro rfl; exact hnot hx
    rw [this]; simp
  have hidx : w5.inc.problems[w.inc.problems.length]? = some b := by
    simp [hp5, hr.problems]
  obtain ⟨q2, h2, hr2⟩ := removeIdx_ok hw5 hidx
  have hw2 := hr2.inv hw5 hidx
  have hcnt : ∀ d, AL.get d q2.counts = AL.get d w.inc.counts := by
    intro d
    rw [hr2.counts hw5]
    simp only [hB, hc5, hr.c.cnt, addU, elems_get (hw.batches b)]
    by_cases hd : d ∈ AL.keys (w.B b).lookup
    · obtain ⟨g, hg⟩ := (AL.mem_keys_iff _ _).1 hd
      simp only [hd, if_true, hg]
      cases hc : AL.get d w.inc.counts with
      | none => simp [cntOf, decU]
      | some x =>
        obtain ⟨c, g'⟩ := x
        have e1 := ha.1 d g hg c g' hc
        have e2 := (hw.some d c g' hc).1
        have e3 : useCount w.B w.inc.problems d ≠ 0 := by
          intro h0
          rw [(hw.zero d).2 h0] at hc; simp at hc
        subst e1
        obtain ⟨c, rfl⟩ : ∃ k, c = k + 1 := ⟨c - 1, by omega⟩
        simp [cntOf, decU]
    · have hg : AL.get d (w.B b).lookup = none := (AL.get_eq_none_iff _ _).2 hd
      simp [hd, hg]
  have hgrp : (fun d => (AL.get d q2.counts).map Prod.snd) = fun d => (AL.get d w.inc.counts).map Prod.snd := by
    funext d; rw [hcnt]
  have hg2 := hw2.g
  simp only [hgrp] at hg2
  have hget : ∀ g, AL.get g q2.groups = AL.get g w.inc.groups := by
    intro g
    apply hw.g.get_of_getD hg2
    rw [hr2.groups, hg5, hr.groups, List.filter_append]
    have e1 : ((AL.get g w.inc.groups).getD []).filter (fun x => (AL.get x q2.counts).isSome) =
        (AL.get g w.inc.groups).getD [] := by
      rw [List.filter_eq_self]
      intro x hx
      cases hl : AL.get g w.inc.groups with
      | none => rw [hl] at hx; simp at hx
      | some l =>
        rw [hl] at hx
        have := (hw.g.mem g l hl x).1 hx
        rw [hcnt]
        cases hc : AL.get x w.inc.counts with
        | none => rw [hc] at this; simp at this
        | some y => rfl
    have e2 : ∀ L : List (DVId × GroupId), ((L.filter fun x => decide (x.2 = g ∧ AL.get x.1 w.inc.counts = none)).map
        Prod.fst).filter (fun x => (AL.get x q2.counts).isSome) = [] := by
      intro L
      rw [List.filter_eq_nil_iff]
      intro x hx
      obtain ⟨y, hy, rfl⟩ := List.mem_map.1 hx
      have := (List.mem_filter.1 hy).2
      simp only [decide_eq_true_eq] at this
      rw [hcnt, this.2]; simp
    rw [e1, e2, List.append_nil]
  refine ⟨q2, ?_, hw2, ?_, hcnt, hget, ?_, ?_⟩
  · simp only [IncProblem.remove, hfind]; exact h2
  · rw [hr2.problems]
    simp [hp5, hr.problems, List.eraseIdx_append_of_length_le]
  · rw [hr2.ordering]
    apply List.filter_congr
    intro g _
    have hk : g ∈ AL.keys q2.groups ↔ g ∈ w.inc.ordering := by
      rw [hw.g.ord, AL.mem_keys_iff, AL.mem_keys_iff, hget]
    simp [hk]
  · intro d
    rw [hr2.backup, hcnt, hB]

/-! ### layout loops -/

/-- Prefix sum of dimensions. -/
def prefixDim (f : Nat → Nat) (l : List Nat) (i : Nat) : Nat := ((l.take i).map f).sum

structure LayoutDV (h : Heap V) (dvs : List DVId) (L : Layout) : Prop where
  dvsEq : L.dvs = dvs
  bi : ∀ i (hi : i < dvs.length), L.blockIndex dvs[i] = i
  cb : ∀ i (hi : i < dvs.length), L.columnBase dvs[i] = prefixDim h.minDim dvs i

theorem LayoutDV.snoc {h : Heap V} {dvs : List DVId} {L : Layout} (hL : LayoutDV h dvs L) {d : DVId} (hd : d ∉ dvs) :
    LayoutDV h (dvs ++ [d]) { L with
      dvs := L.dvs ++ [d]
      blockIndex := fun d' => if d' = d then (L.dvs ++ [d]).length - 1 else L.blockIndex d'
      columnBase := fun d' => if d' = d then prefixDim h.minDim dvs dvs.length else L.columnBase d' } := by
  refine ⟨by simp [hL.dvsEq], ?_, ?_⟩
  · intro i hi
    simp only [List.length_append, List.length_cons, List.length_nil] at hi
    by_cases h1 : i < dvs.length
    · rw [List.getElem_append_left h1]
      have : dvs[i] ≠ d := fun e => hd (e ▸ List.getElem_mem h1)
      simp only [this, if_false]; exact hL.bi i h1
    · have h2 : i = dvs.length := by omega
      subst h2
      simp [hL.dvsEq]
  · intro i hi
    simp only [List.length_append, List.length_cons, List.length_nil] at hi
    by_cases h1 : i < dvs.length
    · rw [List.getElem_append_left h1]
      have : dvs[i] ≠ d := fun e => hd (e ▸ List.getElem_mem h1)
      simp only [this, if_false]
      rw [hL.cb i h1, prefixDim, prefixDim, List.take_append_of_le_length (by omega)]
    · have h2 : i = dvs.length := by omega
      subst h2
      simp [prefixDim]

theorem layoutDVs_eq {w : World V} (hw : WInv w) (n i : Nat) (pre : List DVId)
    (hpre : pre = ((enumDV w.inc.groups w.inc.ordering).take i).filter w.heap.active)
    (hn : i + n = (enumDV w.inc.groups w.inc.ordering).length) (L : Layout) (hL : LayoutDV w.heap pre L) :
    ∃ L', EWorld.layoutDVs w.heap w.inc n i (prefixDim w.heap.minDim pre pre.length) L = .ok L' () ∧
      LayoutDV w.heap ((enumDV w.inc.groups w.inc.ordering).filter w.heap.active) L' ∧
      L'.ets = L.ets ∧ L'.rowBase = L.rowBase := by
  induction n generalizing i pre L with
  | zero =>
    rw [List.take_of_length_le (by omega)] at hpre
    subst hpre
    exact ⟨L, rfl, hL, rfl, rfl⟩
  | succ n ih =>
    have hlt : i < (enumDV w.inc.groups w.inc.ordering).length := by omega
    rw [EWorld.layoutDVs, inc_designVariable_eq hw, List.getElem?_eq_getElem hlt]
    simp only
    set d := (enumDV w.inc.groups w.inc.ordering)[i] with hdef
    have hd : d ∉ pre := by
      intro hin
      rw [hpre] at hin
      have hin := List.mem_of_mem_filter hin
      obtain ⟨j, hj, he⟩ := List.getElem_of_mem hin
      rw [List.getElem_take] at he
      have hnd := hw.g.nodup_enum
      have := (hnd.getElem_inj_iff).1 (he.trans hdef)
      simp only [List.length_take] at hj
      omega
    by_cases hact : w.heap.active d = true
    · simp only [hact, if_true]
      have hpre' : pre ++ [d] = ((enumDV w.inc.groups w.inc.ordering).take (i+1)).filter w.heap.active := by
        rw [List.take_succ_eq_append_getElem hlt, List.filter_append, ← hpre]
        simp [← hdef, hact]
      have hsum : prefixDim w.heap.minDim pre pre.length + w.heap.minDim d =
          prefixDim w.heap.minDim (pre ++ [d]) (pre ++ [d]).length := by
        simp [prefixDim]
      rw [hsum]
      obtain ⟨L', h1, h2, h3, h4⟩ := ih (i+1) _ hpre' (by omega) _ (hL.snoc hd)
      exact ⟨L', h1, h2, h3, h4⟩
    · simp only [hact, Bool.false_eq_true, if_false]
      have hpre' : pre = ((enumDV w.inc.groups w.inc.ordering).take (i+1)).filter w.heap.active := by
        rw [List.take_succ_eq_append_getElem hlt, List.filter_append, ← hpre]
        simp [← hdef, hact]
      exact ih (i+1) _ hpre' (by omega) L hL

structure LayoutET (h : Heap V) (ets : List ETId) (L : Layout) : Prop where
  etsEq : L.ets = ets
  rb : ∀ i (hi : i < ets.length), L.rowBase ets[i] = prefixDim h.etDim ets i

theorem inc_errorTerm_eq {w : World V} (hw : WInv w) (i : Nat) :
    w.inc.errorTerm w.B i = match (w.inc.problems.flatMap fun b => (w.B b).errorTerms)[i]? with
      | some e => .ok e ()
      | none => .throw .outOfBound () := by
  have := errorIdxLoop_eq w.B hw.batches i w.inc.problems w.inc.problems 0 0 (by omega) (by simp)
  rw [IncProblem.errorTerm]
  rw [Nat.sub_zero] at this
  refine Eq.trans ?_ (this.trans ?_)
  · rcases IncProblem.errorIdxLoop w.B i w.inc.problems 0 0 with _ | ⟨k, j⟩ <;> rfl
  · cases (w.inc.problems.flatMap fun b => (w.B b).errorTerms)[i]? <;> rfl

theorem inc_errorTerms_nodup {w : World V} (hw : WInv w) :
    (w.inc.problems.flatMap fun b => (w.B b).errorTerms).Nodup := by
  have : (w.inc.problems.flatMap fun b => (w.B b).errorTerms).Perm
      (w.inc.problems.flatMap fun b => (w.B b).etLookup) := by
    generalize w.inc.problems = ps
    induction ps with
    | nil => exact List.Perm.nil
    | cons b ps ih => simp only [List.flatMap_cons]; exact (hw.batches b).et.append ih
  exact this.nodup_iff.2 hw.et

theorem layoutETs_eq {w : World V} (hw : WInv w) (n i : Nat) (pre : List ETId)
    (hpre : pre = (w.inc.problems.flatMap fun b => (w.B b).errorTerms).take i)
    (hn : i + n = (w.inc.problems.flatMap fun b => (w.B b).errorTerms).length) (L : Layout)
    (hL : LayoutET w.heap pre L) :
    ∃ L', EWorld.layoutETs w.B w.heap w.inc n i (prefixDim w.heap.etDim pre pre.length) L = .ok L' () ∧
      LayoutET w.heap (w.inc.problems.flatMap fun b => (w.B b).errorTerms) L' ∧
      L'.dvs = L.dvs ∧ L'.blockIndex = L.blockIndex ∧ L'.columnBase = L.columnBase := by
  induction n generalizing i pre L with
  | zero =>
    rw [List.take_of_length_le (by omega)] at hpre
    subst hpre
    exact ⟨L, rfl, hL, rfl, rfl, rfl⟩
  | succ n ih =>
    have hlt : i < (w.inc.problems.flatMap fun b => (w.B b).errorTerms).length := by omega
    rw [EWorld.layoutETs, inc_errorTerm_eq hw, List.getElem?_eq_getElem hlt]
    simp only
    set e := (w.inc.problems.flatMap fun b => (w.B b).errorTerms)[i] with hdef
    have hd : e ∉ pre := by
      intro hin
      rw [hpre] at hin
      obtain ⟨j, hj, he⟩ := List.getElem_of_mem hin
      rw [List.getElem_take] at he
      have := ((inc_errorTerms_nodup hw).getElem_inj_iff).1 (he.trans hdef)
      simp only [List.length_take] at hj
      omega
    have hpre' : pre ++ [e] = (w.inc.problems.flatMap fun b => (w.B b).errorTerms).take (i+1) := by
      rw [List.take_succ_eq_append_getElem hlt, ← hpre]
    have hsum : prefixDim w.heap.etDim pre pre.length + w.heap.etDim e =
        prefixDim w.heap.etDim (pre ++ [e]) (pre ++ [e]).length := by
      simp [prefixDim]
    rw [hsum]
    obtain ⟨L', h1, h2, h3⟩ := ih (i+1) _ hpre' (by omega) { L with
        rowBase := fun e' => if e' = e then prefixDim w.heap.etDim pre pre.length else L.rowBase e'
        ets := L.ets ++ [e] } (by
      refine ⟨by simp [hL.etsEq], ?_⟩
      intro k hk
      simp only [List.length_append, List.length_cons, List.length_nil] at hk
      by_cases h1 : k < pre.length
      · rw [List.getElem_append_left h1]
        have : pre[k] ≠ e := fun e' => hd (e' ▸ List.getElem_mem h1)
        simp only [this, if_false]
        rw [hL.rb k h1, prefixDim, prefixDim, List.take_append_of_le_length (by omega)]
      · have h2 : k = pre.length := by omega
        subst h2
        simp [prefixDim])
    exact ⟨L', h1, h2, h3⟩

theorem restoreLinearSolver_eq {w : EWorld V F M} (hw : WInv w.toWorld) (buildOk : Bool) :
    ∃ L, w.restoreLinearSolver buildOk = (if buildOk then .ok () { w with est := { w.est with layout := L } }
        else .throw .external { w with est := { w.est with layout := L } }) ∧
      LayoutDV w.heap ((enumDV w.est.inc.groups w.est.inc.ordering).filter w.heap.active) L ∧
      LayoutET w.heap (w.est.inc.problems.flatMap fun b => (w.B b).errorTerms) L := by
  have hp : (enumDV w.est.inc.groups w.est.inc.ordering).Perm (AL.keys w.est.inc.counts) :=
    hw.g.enum_perm hw.nd (fun d => by
      rw [AL.mem_keys_iff]
      simp only [EWorld.toWorld]
      cases AL.get d w.est.inc.counts <;> simp)
  have hlen : (enumDV w.est.inc.groups w.est.inc.ordering).length = w.est.inc.numDesignVariables := by
    rw [hp.length_eq]; simp [AL.keys, IncProblem.numDesignVariables]
  have hlen2 : w.est.inc.numErrorTerms w.B = (w.est.inc.problems.flatMap fun b => (w.B b).errorTerms).length := by
    have hfold : ∀ (l : List BatchId) n, l.foldl (fun n b => n + (w.B b).numErrorTerms) n =
        n + (l.flatMap fun b => (w.B b).errorTerms).length := by
      intro l
      induction l with
      | nil => simp
      | cons b l ih =>
        intro n
        have : (w.B b).numErrorTerms = (w.B b).errorTerms.length := by
          have := (hw.batches b).et.length_eq
          simp only [EWorld.toWorld] at this
          rw [this]; rfl
        rw [List.foldl_cons, ih]; simp [this]; omega
    rw [IncProblem.numErrorTerms, hfold]; omega
  obtain ⟨L1, h1, h2, h3, h4⟩ := layoutDVs_eq hw w.est.inc.numDesignVariables 0 [] (by simp) (by
    simp only [EWorld.toWorld]; omega) { w.est.layout with dvs := [] } ⟨rfl, by simp, by simp⟩
  obtain ⟨L2, k1, k2, k3, k4, k5⟩ := layoutETs_eq hw (w.est.inc.numErrorTerms w.B) 0 [] (by simp) (by
    simp only [EWorld.toWorld]; omega) { L1 with ets := [] } ⟨rfl, by simp⟩
  simp only [EWorld.toWorld, prefixDim, List.take_nil, List.map_nil, List.sum_nil] at h1 k1
  refine ⟨L2, ?_, ?_, k2⟩
  · unfold EWorld.restoreLinearSolver
    rw [h1]
    simp only
    rw [k1]
  · refine ⟨by rw [k3]; exact h2.dvsEq, ?_, ?_⟩
    · intro i hi; rw [k4]; exact h2.bi i hi
    · intro i hi; rw [k5]; exact h2.cb i hi

end Verif
