import Verif.Spec.CalibLib
import Verif.Props.SplineOutput
import Verif.Lemmas.OnlineNew3

/-! The batches of the calibrators in the estimator of the library. -/

namespace Verif
namespace CalibLib
variable {X V F M : Type}

/-! ### Names -/

theorem calVar_inj {i j : Nat} (h : calVar i = calVar j) : i = j := by
  have := congrArg Nat.unpair h
  simp only [calVar, Nat.unpair_pair, Prod.mk.injEq] at this
  exact this.2

theorem splVar_inj {n i m j : Nat} (h : splVar n i = splVar m j) : n = m ∧ i = j := by
  have := congrArg Nat.unpair h
  simp only [splVar, Nat.unpair_pair, Prod.mk.injEq] at this
  omega

theorem cal_ne_spl (i n j : Nat) : calVar i ≠ splVar n j := by
  intro h
  have := congrArg Nat.unpair h
  simp only [splVar, calVar, Nat.unpair_pair, Prod.mk.injEq] at this
  omega

theorem term_inj {n i m j : Nat} (h : term n i = term m j) : n = m ∧ i = j := by
  have := congrArg Nat.unpair h
  simp only [term, Nat.unpair_pair, Prod.mk.injEq] at this
  exact this

/-- the spline variables of a window. -/
def spl (c : Env X V F M) (n : Nat) (x : X) : List DVId := c.trVars n x ++ c.roVars n x

theorem spl_eq (c : Env X V F M) (n : Nat) (x : X) : spl c n x = (List.range (c.ntr x + c.nro x)).map (splVar n) := by
  unfold spl Env.trVars Env.roVars
  rw [List.range_add, List.map_append, List.map_map]
  rfl

theorem mem_spl {c : Env X V F M} {n : Nat} {x : X} {d : DVId} : d ∈ spl c n x ↔ ∃ j < c.ntr x + c.nro x, splVar n j = d := by
  rw [spl_eq]; simp [List.mem_map]

theorem mem_cal {c : Env X V F M} {d : DVId} : d ∈ c.cal ↔ ∃ j < c.ncal, calVar j = d := by
  simp [Env.cal, List.mem_map]

theorem mem_termIds {c : Env X V F M} {n : Nat} {x : X} {e : ETId} : e ∈ c.termIds n x ↔ ∃ j < (c.terms x).length, term n j = e := by
  simp [Env.termIds, List.mem_map]

theorem vars_nodup (c : Env X V F M) (n : Nat) (x : X) : (spl c n x ++ c.cal).Nodup := by
  rw [List.nodup_append]
  refine ⟨?_, ?_, ?_⟩
  · rw [spl_eq]
    exact (List.nodup_map_iff (fun i j h => (splVar_inj h).2)).2 List.nodup_range
  · exact (List.nodup_map_iff (fun i j h => calVar_inj h)).2 List.nodup_range
  · rintro a ha b hb rfl
    obtain ⟨i, -, h1⟩ := mem_spl.1 ha
    obtain ⟨j, -, h2⟩ := mem_cal.1 hb
    exact cal_ne_spl j n i (h2.trans h1.symm)

theorem termIds_nodup (c : Env X V F M) (n : Nat) (x : X) : (c.termIds n x).Nodup :=
  (List.nodup_map_iff (fun i j h => (term_inj h).2)).2 List.nodup_range

theorem dvs_eq (c : Env X V F M) (n : Nat) (x : X) : c.dvs n x (2 * n) = c.trVars n x ∧ c.dvs n x (2 * n + 1) = c.roVars n x := by
  unfold Env.dvs
  exact ⟨by simp, by rw [if_neg]; intro h; exact absurd h (Nat.succ_ne_self _)⟩

/-! ### The batch of a window -/

/-- what the batch of a window is. -/
structure IsBatch (c : Env X V F M) (n : Nat) (x : X) (p : OptProblem V) : Prop where
  groups : ∀ g, AL.get g p.groups = if g = 0 then some (spl c n x) else if g = 1 then some c.cal else none
  ordering : p.ordering = [0, 1]
  terms : p.errorTerms = c.termIds n x
  etLookup : p.etLookup = c.termIds n x

/-- the objects of a window, after the splines are added. -/
def ready (c : Env X V F M) (n : Nat) (x : X) (h : Heap V) : Heap V := (c.alloc n x h).activate (spl c n x)

theorem batch_built (c : Env X V F M) (n : Nat) {x : X} (h : Heap V) (hx : Good c x) (hc : 0 < c.ncal) :
    ∃ p : SplineProblem V, calibBatch (c.dvs n x) c.late c.cal (2 * n) (2 * n + 1) (c.termIds n x) (c.alloc n x h) =
      .ok () (p, ready c n x h) ∧ IsBatch c n x p.base ∧ BInv (ready c n x h) p.base := by
  obtain ⟨e1, e2⟩ := dvs_eq c n x
  have hn : (c.dvs n x (2 * n) ++ c.dvs n x (2 * n + 1) ++ c.cal).Nodup := by rw [e1, e2]; exact vars_nodup c n x
  have hs : c.dvs n x (2 * n) ++ c.dvs n x (2 * n + 1) ≠ [] := by
    rw [e1, e2]
    intro h'
    have : (spl c n x).length = 0 := by unfold spl; rw [h']; rfl
    rw [spl_eq] at this
    simp only [List.length_map, List.length_range] at this
    have := hx.1
    omega
  have hcal : c.cal ≠ [] := by
    intro h'
    have : c.cal.length = 0 := by rw [h']; rfl
    simp [Env.cal] at this
    omega
  have hd : ∀ e ∈ c.termIds n x, ∀ d ∈ (c.alloc n x h).etDVs e, d ∈ c.dvs n x (2 * n) ++ c.dvs n x (2 * n + 1) ++ c.cal := by
    intro e he d hd
    rw [e1, e2]
    obtain ⟨j, hj, rfl⟩ := mem_termIds.1 he
    simp only [Env.alloc, term, Nat.unpair_pair, if_true] at hd
    rw [List.getElem?_eq_getElem hj] at hd
    simp only [Option.getD_some, List.mem_map] at hd
    obtain ⟨r, hr, rfl⟩ := hd
    have := hx.2 _ (List.getElem_mem hj) r hr
    cases r with
    | cal k => exact List.mem_append_right _ (mem_cal.2 ⟨k, this, rfl⟩)
    | spl k => exact List.mem_append_left _ (mem_spl.2 ⟨k, this, rfl⟩)
  generalize htr : 2 * n = tr at *
  generalize hro : tr + 1 = ro at *
  generalize hdv : c.dvs n x = dvs at *
  generalize hts : c.termIds n x = ts at *
  have ht : ts.Nodup := by rw [← hts]; exact termIds_nodup c n x
  have hspl : dvs tr ++ dvs ro = spl c n x := by rw [e1, e2]; rfl
  have het : (SplineOut.beforeTerms dvs c.late c.cal tr ro : OptProblem V).errorTerms = [] ∧
      (SplineOut.beforeTerms dvs c.late c.cal tr ro : OptProblem V).etLookup = [] := by
    cases c.late <;> simp [SplineOut.beforeTerms, rest_withDVs, OptProblem.empty]
  have he : ∀ e ∈ ts, e ∉ (SplineOut.beforeTerms dvs c.late c.cal tr ro : OptProblem V).etLookup := by
    intro e _; rw [het.2]; simp
  have hcov : ∀ e ∈ ts, ∀ d ∈ ((c.alloc n x h).activate (dvs tr ++ dvs ro)).etDVs e,
      d ∈ AL.keys (SplineOut.beforeTerms dvs c.late c.cal tr ro : OptProblem V).lookup :=
    fun e he' d hd' => (SplineOut.beforeTerms_keys dvs c.late c.cal tr ro d).2 (hd e he' d hd')
  have hadd := addTermsAll_eq ((c.alloc n x h).activate (dvs tr ++ dvs ro)) ts (SplineOut.beforeTerms dvs c.late c.cal tr ro) ht he hcov
  have hg := SplineOut.beforeTerms_groups (V := V) dvs c.late c.cal tr ro
  have hi0 := SplineOut.beforeTerms_inv dvs c.late c.cal tr ro ((c.alloc n x h).activate (dvs tr ++ dvs ro)) hn
  have hi : BInv ((c.alloc n x h).activate (dvs tr ++ dvs ro)) ((SplineOut.beforeTerms dvs c.late c.cal tr ro).withETs ts) := by
    refine { hi0 with et := ?_, etn := ?_, cl := ?_ }
    · simp only [OptProblem.withETs, het]; exact List.Perm.refl _
    · simp only [OptProblem.withETs, het]; exact ht
    · simp only [OptProblem.withETs, het]; exact hcov
  have hord : ((SplineOut.beforeTerms dvs c.late c.cal tr ro : OptProblem V).withETs ts).ordering = if c.late then [0, 1] else [1, 0] :=
    SplineOut.beforeTerms_ordering dvs c.late c.cal tr ro hs hcal
  have hset := setOrdering_eq hi [0, 1]
  have hperm : [0, 1].Perm ((SplineOut.beforeTerms dvs c.late c.cal tr ro : OptProblem V).withETs ts).ordering := by
    rw [hord]
    cases c.late
    · exact List.Perm.swap 1 0 []
    · exact List.Perm.refl _
  obtain ⟨-, hset⟩ := hset.resolve_right (fun h' => h'.1 hperm)
  have hfin : BInv ((c.alloc n x h).activate (dvs tr ++ dvs ro))
      ({ ((SplineOut.beforeTerms dvs c.late c.cal tr ro).withETs ts) with ordering := [0, 1] } : OptProblem V) :=
    { hi with g := hi.g.reorder hperm }
  refine ⟨⟨{ ((SplineOut.beforeTerms dvs c.late c.cal tr ro).withETs ts) with ordering := [0, 1] }, [tr], [ro]⟩, ?_, ⟨?_, rfl, ?_, ?_⟩, ?_⟩
  · rw [SplineOut.start_eq dvs c.late c.cal tr ro ts (c.alloc n x h) hn]
    simp only [onBase, hadd, Res.mapState, Res.bind, hset, ready, ← hspl]
  · intro g
    simp only [OptProblem.withETs, hg g hs hcal, hspl]
  · simp [OptProblem.withETs, het, hts]
  · simp [OptProblem.withETs, het, hts]
  · rw [ready, ← hspl]; exact hfin

end CalibLib
end Verif
