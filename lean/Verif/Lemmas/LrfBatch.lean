import Verif.Model.Lrf
import Verif.Lemmas.BatchBuild
import Verif.Lemmas.Loop

/-! Lemmas about the batches of the 2D laser example. -/

namespace Verif
namespace Lrf
variable {V : Type}

/-- the design variables of the error terms are the ones their constructors are given. -/
def Wired (ad : Addr) (h : Heap V) : Prop := ∀ t, h.etDVs (ad.term t) = t.vars.map ad.var

/-- design variables with groups, as addresses. -/
def Addr.vars (ad : Addr) (l : List (Var × GroupId)) : List (DVId × GroupId) := l.map fun v => (ad.var v.1, v.2)

theorem Addr.fst_vars (ad : Addr) (l : List (Var × GroupId)) : (ad.vars l).map Prod.fst = (l.map Prod.fst).map ad.var := by
  simp [Addr.vars, Function.comp_def]

theorem Addr.snd_vars (ad : Addr) (l : List (Var × GroupId)) : (ad.vars l).map Prod.snd = l.map Prod.snd := by
  simp [Addr.vars, Function.comp_def]

theorem addVars_built {ad : Addr} (l : List (Var × GroupId)) {vs : List (Var × GroupId)} {es : List ETId} {p : OptProblem V}
    (hp : Built (ad.vars vs) es p) (hn : ((vs ++ l).map Prod.fst).Nodup) :
    ∃ p', addVars ad l p = .ok () p' ∧ Built (ad.vars (vs ++ l)) es p' := by
  induction l generalizing vs p with
  | nil => exact ⟨p, rfl, by simpa using hp⟩
  | cons v l ih =>
    obtain ⟨v, g⟩ := v
    have hv : ad.var v ∉ (ad.vars vs).map Prod.fst := by
      rw [ad.fst_vars, List.mem_map]
      rintro ⟨v', h1, h2⟩
      have e := ad.var_inj h2
      subst e
      rw [List.map_append, List.nodup_append] at hn
      exact hn.2.2 v' h1 v' (by simp) rfl
    obtain ⟨p1, h1, h2⟩ := hp.addDV (g := g) hv
    have h3 : Built (ad.vars (vs ++ [(v, g)])) es p1 := by simpa [Addr.vars] using h2
    obtain ⟨p2, h4, h5⟩ := ih h3 (by simpa using hn)
    exact ⟨p2, by simp only [addVars, h1, Res.bind, h4], by simpa using h5⟩

theorem addTerms_built {ad : Addr} {h : Heap V} (hw : Wired ad h) (l : List Term) {vs : List (Var × GroupId)} {ts : List Term}
    {p : OptProblem V} (hp : Built (ad.vars vs) (ts.map ad.term) p) (hn : (ts ++ l).Nodup)
    (hv : ∀ t ∈ l, ∀ v ∈ t.vars, v ∈ vs.map Prod.fst) :
    ∃ p', addTerms ad h l p = .ok () p' ∧ Built (ad.vars vs) ((ts ++ l).map ad.term) p' := by
  induction l generalizing ts p with
  | nil => exact ⟨p, rfl, by simpa using hp⟩
  | cons t l ih =>
    have ht : ad.term t ∉ ts.map ad.term := by
      rw [List.mem_map]
      rintro ⟨t', h1, h2⟩
      have e := ad.term_inj h2
      subst e
      rw [List.nodup_append] at hn
      exact hn.2.2 t' h1 t' (by simp) rfl
    have hd : ∀ d ∈ h.etDVs (ad.term t), d ∈ (ad.vars vs).map Prod.fst := by
      intro d hd
      rw [hw, List.mem_map] at hd
      obtain ⟨v, hv1, rfl⟩ := hd
      rw [ad.fst_vars]
      exact List.mem_map_of_mem (hv t (by simp) v hv1)
    obtain ⟨p1, h1, h2⟩ := hp.addET ht hd
    have h3 : Built (ad.vars vs) ((ts ++ [t]).map ad.term) p1 := by simpa using h2
    obtain ⟨p2, h4, h5⟩ := ih h3 (by simpa using hn) (fun t' h' => hv t' (by simp [h']))
    exact ⟨p2, by simp only [addTerms, h1, Res.bind, h4], by simpa using h5⟩

/-- the step an error term belongs to. -/
def Term.step : Term → Nat
  | .motion k => k
  | .obs k _ => k

theorem stepTerms_step {nl k : Nat} {t : Term} (h : t ∈ stepTerms nl k) : t.step = k := by
  simp only [stepTerms, List.mem_cons, List.mem_map, List.mem_range] at h
  rcases h with rfl | ⟨l, _, rfl⟩ <;> rfl

theorem stepTerms_nodup (nl k : Nat) : (stepTerms nl k).Nodup := by
  unfold stepTerms
  rw [List.nodup_cons]
  refine ⟨by simp, ?_⟩
  rw [List.nodup_map_iff]
  · exact List.nodup_range
  · intro a b h; simpa using h

theorem flat_nodup (nl : Nat) (l : List Nat) (hl : l.Nodup) : (l.flatMap (stepTerms nl)).Nodup := by
  rw [List.nodup_flatMap]
  refine ⟨fun x _ => stepTerms_nodup nl x, ?_⟩
  apply hl.imp
  intro a b hab
  rw [Function.onFun, List.disjoint_left]
  intro t h1 h2
  exact hab ((stepTerms_step h1).symm.trans (stepTerms_step h2))

/-- the design variables of a batch from state `i`, `m` further states. -/
def batchVars (nl i m : Nat) : List (Var × GroupId) :=
  ([(.state i, 0), (.theta, 2)] ++ (List.range nl).map fun l => (.lm l, 1)) ++
    (List.range' (i + 1) m).map fun k => (.state k, 0)

theorem batchVars_nodup (nl i m : Nat) : ((batchVars nl i m).map Prod.fst).Nodup := by
  have h1 : ((List.range nl).map Var.lm).Nodup := by
    rw [List.nodup_map_iff (fun a b h => by simpa using h)]; exact List.nodup_range
  have h2 : ((List.range' (i + 1) m).map Var.state).Nodup := by
    rw [List.nodup_map_iff (fun a b h => by simpa using h)]; exact List.nodup_range'
  have e : (batchVars nl i m).map Prod.fst =
      [.state i, .theta] ++ ((List.range nl).map Var.lm ++ (List.range' (i + 1) m).map Var.state) := by
    simp [batchVars, Function.comp_def]
  rw [e, List.nodup_append]
  refine ⟨by simp, ?_, ?_⟩
  · rw [List.nodup_append]
    refine ⟨h1, h2, ?_⟩
    intro a ha b hb
    simp only [List.mem_map] at ha hb
    obtain ⟨_, _, rfl⟩ := ha
    obtain ⟨_, _, rfl⟩ := hb
    simp
  · intro a ha b hb
    simp only [List.mem_append, List.mem_map, List.mem_range'_1, List.mem_range] at hb
    simp only [List.mem_cons, List.not_mem_nil, or_false] at ha
    rcases ha with rfl | rfl <;> rcases hb with ⟨l, _, rfl⟩ | ⟨k, hk, rfl⟩ <;> simp
    omega

theorem batchLoop_built {ad : Addr} {h : Heap V} (hw : Wired ad h) {nl i : Nat} (m m0 : Nat) {p : OptProblem V}
    (hp : Built (ad.vars (batchVars nl i m0)) (((List.range' (i + 1) m0).flatMap (stepTerms nl)).map ad.term) p) :
    ∃ p', batchLoop ad h nl m (i + 1 + m0) p = .ok () p' ∧ Built (ad.vars (batchVars nl i (m0 + m)))
      (((List.range' (i + 1) (m0 + m)).flatMap (stepTerms nl)).map ad.term) p' := by
  induction m generalizing m0 p with
  | zero => exact ⟨p, rfl, hp⟩
  | succ m ih =>
    have hr : List.range' (i + 1) (m0 + 1) = List.range' (i + 1) m0 ++ [i + 1 + m0] := by
      rw [List.range'_concat]; simp
    have hb : batchVars nl i m0 ++ [(.state (i + 1 + m0), 0)] = batchVars nl i (m0 + 1) := by
      simp [batchVars, hr]
    obtain ⟨p1, h1, h2⟩ := addVars_built [(.state (i + 1 + m0), 0)] hp
      (by rw [hb]; exact batchVars_nodup nl i (m0 + 1))
    rw [hb] at h2
    have ht : (List.range' (i + 1) m0).flatMap (stepTerms nl) ++ stepTerms nl (i + 1 + m0) =
        (List.range' (i + 1) (m0 + 1)).flatMap (stepTerms nl) := by
      rw [hr, List.flatMap_append]; simp
    obtain ⟨p2, h3, h4⟩ := addTerms_built hw (stepTerms nl (i + 1 + m0)) h2
      (by rw [ht]; exact flat_nodup nl _ List.nodup_range')
      (by
        intro t ht v hv
        have e : (batchVars nl i (m0 + 1)).map Prod.fst =
          [.state i, .theta] ++ ((List.range nl).map Var.lm ++ (List.range' (i + 1) (m0 + 1)).map Var.state) := by
          simp [batchVars, Function.comp_def]
        rw [e]
        simp only [List.cons_append, List.nil_append, List.mem_cons, List.mem_append, List.mem_map, List.mem_range,
          List.mem_range'_1]
        simp only [stepTerms, List.mem_cons, List.mem_map, List.mem_range] at ht
        rcases ht with rfl | ⟨l, hl, rfl⟩
        · simp only [Term.vars, List.mem_cons, List.not_mem_nil, or_false] at hv
          rcases hv with rfl | rfl
          · rcases Nat.eq_zero_or_pos m0 with h0 | h0
            · left; rw [h0]; rfl
            · right; right; right; exact ⟨i + 1 + m0 - 1, by omega, rfl⟩
          · right; right; right; exact ⟨i + 1 + m0, by omega, rfl⟩
        · simp only [Term.vars, List.mem_cons, List.not_mem_nil, or_false] at hv
          rcases hv with rfl | rfl | rfl
          · right; right; right; exact ⟨i + 1 + m0, by omega, rfl⟩
          · right; right; left; exact ⟨l, hl, rfl⟩
          · right; left; rfl)
    rw [ht] at h4
    obtain ⟨p3, h5, h6⟩ := ih (m0 + 1) h4
    refine ⟨p3, ?_, ?_⟩
    · simp only [batchLoop, h1, h3, Res.bind]
      rw [show i + 1 + m0 + 1 = i + 1 + (m0 + 1) by omega, h5]
    · rw [show m0 + (m + 1) = m0 + 1 + m by omega]; exact h6

theorem buildBatch_built {ad : Addr} {h : Heap V} (hw : Wired ad h) (steps bs nl i : Nat) :
    ∃ p, buildBatch ad h steps bs nl i = .ok () p ∧
      Built (ad.vars (batchVars nl i (min (i + bs) steps - (i + 1))))
        (((List.range' (i + 1) (min (i + bs) steps - (i + 1))).flatMap (stepTerms nl)).map ad.term) p := by
  have e0 : ([(.state i, 0), (.theta, 2)] ++ (List.range nl).map fun l => (.lm l, 1)) = batchVars nl i 0 := by
    simp [batchVars]
  obtain ⟨p1, h1, h2⟩ := addVars_built (V := V) (ad := ad) (vs := []) (batchVars nl i 0) (es := []) (p := OptProblem.empty)
    Built.empty (by simpa using batchVars_nodup nl i 0)
  obtain ⟨p2, h3, h4⟩ := batchLoop_built hw (min (i + bs) steps - (i + 1)) 0 (by simpa using h2)
  refine ⟨p2, ?_, by simpa using h4⟩
  unfold buildBatch
  rw [e0, h1]
  simpa [Res.bind] using h3

end Lrf
end Verif
