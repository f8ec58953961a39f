import Verif.Lemmas.Refused4
import Verif.Lemmas.Estimator2

/-! Helper lemmas for property C118 (continued): a batch refused for an error term stays counted. -/

namespace Verif
open IncProblem
variable {V F M : Type _}

theorem add_dup_leak {w : World V} (hw : WInv w) {b : BatchId}
    (hc : ∀ d g, AL.get d (w.B b).lookup = some g → ∀ c g', AL.get d w.inc.counts = some (c, g') → g' = g)
    {e : ETId} (he : e ∈ (w.B b).etLookup) (hin : w.inc.isETInProblem w.B e = true) :
    ∃ q', w.inc.add w.B (some b) = .throw .invalidOperation q' ∧ q'.problems = w.inc.problems ∧
      ∀ d ∈ AL.keys (w.B b).lookup, Leak w.B d (maxBatches + 1) q' := by
  have hb := hw.batches b
  obtain ⟨q1, h1, hi1, h2, h3, -, -⟩ := addList_ok hw.c (elems (w.B b)) (elems_nodup hb)
    (fun d g hd c g' hU => hc d g ((mem_elems hb d g).1 hd) c g' hU)
    (fun d g _ => hw.cnt_lt d)
  have hlen : (w.B b).numErrorTerms = (w.B b).errorTerms.length := by
    rw [hb.et.length_eq]; rfl
  refine ⟨q1, ?_, h2, ?_⟩
  · simp only [IncProblem.add]
    rw [addLoop_eq hb _ 0 _ (by rw [elems_length hb]; omega), List.drop_zero, h1]
    simp only [Res.bind]
    rw [addErrorLoop_eq w.B hb _ 0 _ (by omega), List.drop_zero, if_pos]
    refine ⟨e, hb.et.mem_iff.2 he, ?_⟩
    rw [isET_iff] at hin ⊢
    rw [h2]; exact hin
  · intro d hd
    obtain ⟨g, hg⟩ := (AL.mem_keys_iff _ _).1 hd
    have hcnt := hi1.cnt d
    rw [addU, elems_get hb, hg] at hcnt
    refine ⟨_, g, hcnt, ?_, ?_⟩
    · rw [h2]
      cases hx : AL.get d w.inc.counts with
      | none => rw [(hw.zero d).1 hx]; omega
      | some x =>
        obtain ⟨c, g'⟩ := x
        have := (hw.some d c g' hx).1
        simp only [cntOf, Option.map_some, Option.getD_some]
        omega
    · have h4 := hw.cnt_le d
      have h5 := hw.len
      omega

/-- calls on a batch that leave the variables of contained batches alone keep the use counts. -/
theorem bop_keeps {D : Dbl F} {m0 : M} {w w' : EWorld V F M} {b : BatchId} {bop : BOp V} (hB : ∀ b, BInv w.heap (w.B b))
    (hs : ((EOp.batch b bop : EOp V F M).step D m0 w).state? = some w') :
    w'.est = w.est ∧ (∀ b, BInv w'.heap (w'.B b)) ∧
    (((∀ d g, bop ≠ .addDV d g) ∧ bop ≠ .clear) → ∀ b', (w'.B b').lookup = (w.B b').lookup) ∧
    (∀ b', b' ≠ b → (w'.B b').lookup = (w.B b').lookup) := by
  have hs := state?_bind_ret (r := (bop.step (w.B b, w.heap)).mapState fun s : OptProblem V × Heap V =>
      ({ w with B := fun b' => if b' = b then s.1 else w.B b', heap := s.2 } : EWorld V F M)) (f := fun _ => none) hs
  obtain ⟨t, ht, rfl⟩ := state?_mapState hs
  have : ∃ ok, (bop.step (w.B b, w.heap)).outcome = some (ok, t) := by
    revert ht
    cases bop.step (w.B b, w.heap) <;> simp [Res.state?, Res.outcome]
  obtain ⟨ok, ho⟩ := this
  have heff := BOp.step_eff (hB b) ho
  refine ⟨rfl, ?_, ?_, ?_⟩
  · intro b'
    by_cases hb : b' = b
    · simp only [hb, if_true]; exact heff.inv (hB b)
    · simp only [hb, if_false]; exact (hB b').heap heff.etDVs
  · intro hk b'
    by_cases hb : b' = b
    · simp only [hb, if_true]
      cases heff with
      | addDV d g hop hd => exact absurd hop (hk.1 _ _)
      | clear hop => exact absurd hop hk.2
      | _ => rfl
    · simp only [hb, if_false]
  · intro b' hb
    simp only [hb, if_false]

theorem useCount_congr {B B' : BatchId → OptProblem V} {ps : List BatchId} (h : ∀ b ∈ ps, (B' b).lookup = (B b).lookup)
    (d : DVId) : useCount B' ps d = useCount B ps d := by
  unfold useCount
  refine List.countP_congr fun b hb => ?_
  simp only [OptProblem.isDVInProblem, h b hb]

end Verif
