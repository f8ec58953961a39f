import Verif.Lemmas.Refused3

/-! Helper lemmas for property C118 (continued): a variable counted more often than contained batches hold it. -/

namespace Verif
open IncProblem
variable {V F M : Type _}

/-- variable `d` is counted more often than it is held, at most `k` times. -/
def Leak (B : BatchId → OptProblem V) (d : DVId) (k : Nat) (q : IncProblem V) : Prop :=
  ∃ c g, AL.get d q.counts = some (c, g) ∧ useCount B q.problems d < c ∧ c ≤ k

theorem al_get_del_ne {K W : Type _} [DecidableEq K] {k k' : K} (h : k ≠ k') (l : List (K × W)) :
    AL.get k' (AL.del k l) = AL.get k' l := by
  induction l with
  | nil => rfl
  | cons a l ih =>
    obtain ⟨a, v⟩ := a
    simp only [AL.del, AL.get_cons]
    by_cases ha : a = k
    · subst ha; simp [h]
    · simp only [ha, if_false, AL.get_cons, ih]

theorem addOne_count {q q' : IncProblem V} {d d' : DVId} {g' : GroupId} {c : Nat} {g : GroupId}
    (hd : AL.get d q.counts = some (c, g)) (hc : c < 2 ^ 64 - 1) (h : (q.addOne d' g').state? = some q') :
    (d' ≠ d → AL.get d q'.counts = some (c, g)) ∧
    (d' = d → AL.get d q'.counts = some (c + 1, g) ∨
      (AL.get d q'.counts = some (c, g) ∧ ∃ e, q.addOne d' g' = .throw e q')) := by
  unfold IncProblem.addOne at h ⊢
  simp only at h ⊢
  have e1 : (if q.isGroupInProblem g' then q else { q with ordering := q.ordering ++ [g'] }).counts = q.counts := by
    split <;> rfl
  generalize (if q.isGroupInProblem g' then q else { q with ordering := q.ordering ++ [g'] }) = q1 at h e1
  rw [e1] at h ⊢
  cases hx : AL.get d' q.counts with
  | none =>
    rw [hx] at h
    simp only [Res.state?, Option.some.injEq] at h
    subst h
    refine ⟨fun hne => by simp only; rw [AL.get_set_ne hne]; exact hd, ?_⟩
    rintro rfl; rw [hd] at hx; simp at hx
  | some cg =>
    obtain ⟨c', g1⟩ := cg
    rw [hx] at h
    simp only at h ⊢
    by_cases hg : g1 = g'
    · rw [if_neg (by simpa using hg)] at h
      simp only [Res.state?, Option.some.injEq] at h
      subst h
      refine ⟨fun hne => by simp only; rw [AL.get_set_ne hne]; exact hd, ?_⟩
      rintro rfl
      rw [hd] at hx
      obtain ⟨rfl, rfl⟩ : c = c' ∧ g = g1 := by simpa using hx
      left
      simp only [AL.get_set_self, IncProblem.incr]
      rw [if_neg (by omega)]
    · rw [if_pos hg] at h
      simp only [Res.state?, Option.some.injEq] at h
      subst h
      refine ⟨fun _ => by rw [e1]; exact hd, fun _ => .inr ⟨by rw [e1]; exact hd, .invalidOperation, ?_⟩⟩
      rw [if_pos hg]

theorem addList_count {d : DVId} {g : GroupId} : ∀ (es : List (DVId × GroupId)) {q q' : IncProblem V} {c : Nat},
    (AL.keys es).Nodup → AL.get d q.counts = some (c, g) → c < 2 ^ 64 - 1 → (addList q es).state? = some q' →
    ∃ c', AL.get d q'.counts = some (c', g) ∧ c ≤ c' ∧ c' ≤ c + 1 ∧ (d ∉ AL.keys es → c' = c) ∧
      ((∃ u, addList q es = .ok u q') → d ∈ AL.keys es → c' = c + 1)
  | [], q, q', c, _, hd, _, h => by
    simp only [addList, Res.state?, Option.some.injEq] at h
    subst h
    exact ⟨c, hd, le_refl _, by omega, fun _ => rfl, fun _ hk => by simp [AL.keys] at hk⟩
  | (d1, g1) :: es, q, q', c, hn, hd, hc, h => by
    have hn' : d1 ∉ AL.keys es ∧ (AL.keys es).Nodup := by simpa [AL.keys] using hn
    rw [addList] at h
    rcases state?_bind h with ⟨u, q1, h1, h2⟩ | ⟨e, h1⟩
    · obtain ⟨a1, a2⟩ := addOne_count hd hc (by rw [h1]; rfl : Res.state? _ = some q1)
      by_cases hdd : d1 = d
      · subst hdd
        rcases a2 rfl with h3 | ⟨-, e, h3⟩
        · -- counted once here, not again
          have key : ∀ (es : List (DVId × GroupId)) {q q' : IncProblem V} {cg}, d1 ∉ AL.keys es →
              AL.get d1 q.counts = some cg → (addList q es).state? = some q' → AL.get d1 q'.counts = some cg := by
            intro es
            induction es with
            | nil => intro q q' cg _ h0 h; simp only [addList, Res.state?, Option.some.injEq] at h; rw [← h]; exact h0
            | cons x es ih =>
              obtain ⟨d2, g2⟩ := x
              intro q q' cg hk h0 h
              have hk' : d1 ≠ d2 ∧ d1 ∉ AL.keys es := by simpa [AL.keys] using hk
              have hone : ∀ q'', (q.addOne d2 g2).state? = some q'' → AL.get d1 q''.counts = some cg := by
                intro q'' h
                unfold IncProblem.addOne at h
                simp only at h
                have e1 : (if q.isGroupInProblem g2 then q else { q with ordering := q.ordering ++ [g2] }).counts
                    = q.counts := by split <;> rfl
                generalize (if q.isGroupInProblem g2 then q else { q with ordering := q.ordering ++ [g2] }) = qq at h e1
                split at h
                · simp only [Res.state?, Option.some.injEq] at h
                  subst h; simp only; rw [AL.get_set_ne (Ne.symm hk'.1), e1]; exact h0
                · split at h
                  · simp only [Res.state?, Option.some.injEq] at h; subst h; rw [e1]; exact h0
                  · simp only [Res.state?, Option.some.injEq] at h
                    subst h; simp only; rw [AL.get_set_ne (Ne.symm hk'.1), e1]; exact h0
              rw [addList] at h
              rcases state?_bind h with ⟨u, q1, h1, h2⟩ | ⟨e, h1⟩
              · exact ih hk'.2 (hone q1 (by rw [h1]; rfl)) h2
              · exact hone q' (by rw [h1]; rfl)
          refine ⟨c + 1, key es hn'.1 h3 h2, by omega, le_refl _, fun hk => ?_, fun _ _ => rfl⟩
          exact absurd (by simp [AL.keys]) hk
        · rw [h1] at h3; simp at h3
      · have h3 := a1 hdd
        obtain ⟨c', b1, b2, b3, b4, b5⟩ := addList_count es hn'.2 h3 hc h2
        refine ⟨c', b1, b2, b3, fun hk => b4 (fun hk' => hk (by simp [AL.keys] at hk' ⊢; exact .inr hk')), ?_⟩
        rintro ⟨u', hu⟩ hk
        rw [addList, h1] at hu
        refine b5 ⟨u', hu⟩ ?_
        have : d = d1 ∨ d ∈ AL.keys es := by simpa [AL.keys] using hk
        exact this.resolve_left (Ne.symm hdd)
    · obtain ⟨a1, a2⟩ := addOne_count hd hc (by rw [h1]; rfl : Res.state? _ = some q')
      by_cases hdd : d1 = d
      · rcases a2 hdd with h3 | ⟨h3, -⟩
        · refine ⟨c + 1, h3, by omega, le_refl _, fun hk => ?_, ?_⟩
          · exact absurd (by simp [AL.keys, hdd]) hk
          · rintro ⟨u', hu⟩; rw [addList, h1] at hu; simp [Res.bind] at hu
        · refine ⟨c, h3, le_refl _, by omega, fun _ => rfl, ?_⟩
          rintro ⟨u', hu⟩; rw [addList, h1] at hu; simp [Res.bind] at hu
      · refine ⟨c, a1 hdd, le_refl _, by omega, fun _ => rfl, ?_⟩
        rintro ⟨u', hu⟩; rw [addList, h1] at hu; simp [Res.bind] at hu

theorem Leak.add {h : Heap V} {B : BatchId → OptProblem V} (hB : ∀ b, BInv h (B b)) {d : DVId} {k : Nat}
    (hk : k < 2 ^ 64 - 1) {q q' : IncProblem V} {b : Option BatchId} (h0 : Leak B d k q)
    (hs : (q.add B b).state? = some q') : Leak B d (k + 1) q' := by
  obtain ⟨c, g, hc, hlt, hle⟩ := h0
  cases b with
  | none =>
    simp only [IncProblem.add, Res.state?, Option.some.injEq] at hs
    subst hs; exact ⟨c, g, hc, hlt, by omega⟩
  | some b =>
    have hi := hB b
    have hlen : (B b).numDesignVariables = (elems (B b)).length := (elems_length hi).symm
    have hloop := addLoop_eq hi (B b).numDesignVariables 0 q (by rw [hlen]; omega)
    rw [List.drop_zero] at hloop
    simp only [IncProblem.add] at hs
    rw [hloop] at hs
    have hmem : d ∈ AL.keys (elems (B b)) ↔ d ∈ AL.keys (B b).lookup := (elems_perm hi).mem_iff
    rcases state?_bind hs with ⟨u, q1, h1, h2⟩ | ⟨e, h1⟩
    · obtain ⟨c', b1, b2, b3, b4, b5⟩ := addList_count (elems (B b)) (elems_nodup hi) hc (by omega)
        (by rw [h1]; rfl : Res.state? _ = some q1)
      obtain ⟨r1, -⟩ := addList_rest (elems (B b)) q (by rw [h1]; rfl : Res.state? _ = some q1)
      have hu : useCount B (q1.problems ++ [b]) d < c' := by
        rw [useCount_append, r1]
        split
        · rename_i hd
          have := b5 ⟨u, h1⟩ (hmem.2 hd)
          omega
        · omega
      have hu' : useCount B q1.problems d < c' := by rw [r1]; omega
      rcases state?_bind h2 with ⟨u2, q2, h3, h4⟩ | ⟨e, h3⟩
      · have := addErrorLoop_rest B (B b) _ 0 q1 (by rw [h3]; rfl : Res.state? _ = some q2)
        subst this
        split at h4
        · simp only [Res.state?, Option.some.injEq] at h4; subst h4; exact ⟨c', g, b1, hu, by omega⟩
        · simp only [Res.state?, Option.some.injEq] at h4; subst h4; exact ⟨c', g, b1, hu', by omega⟩
      · have := addErrorLoop_rest B (B b) _ 0 q1 (by rw [h3]; rfl : Res.state? _ = some q')
        subst this; exact ⟨c', g, b1, hu', by omega⟩
    · obtain ⟨c', b1, b2, b3, b4, b5⟩ := addList_count (elems (B b)) (elems_nodup hi) hc (by omega)
        (by rw [h1]; rfl : Res.state? _ = some q')
      obtain ⟨r1, -⟩ := addList_rest (elems (B b)) q (by rw [h1]; rfl : Res.state? _ = some q')
      exact ⟨c', g, b1, by rw [r1]; omega, by omega⟩

theorem removeOne_count_ne {q q' : IncProblem V} {d d' : DVId} (hne : d' ≠ d) (h : (q.removeOne d').state? = some q') :
    AL.get d q'.counts = AL.get d q.counts := by
  unfold IncProblem.removeOne at h
  simp only at h
  split at h
  · split at h
    · split at h
      · split at h
        · simp only [Res.state?, Option.some.injEq] at h
          subst h; simp only; rw [al_get_del_ne hne, AL.get_set_ne hne]
        · simp [Res.state?] at h
      · simp only [Res.state?, Option.some.injEq] at h
        subst h; simp only; rw [al_get_del_ne hne, AL.get_set_ne hne]
    · simp [Res.state?] at h
  · simp only [Res.state?, Option.some.injEq] at h
    subst h; simp only; rw [AL.get_set_ne hne]

theorem removeOne_count_self {q q' : IncProblem V} {d : DVId} {c : Nat} {g : GroupId}
    (hd : AL.get d q.counts = some (c, g)) (hc : 2 ≤ c) (h : (q.removeOne d).state? = some q') :
    AL.get d q'.counts = some (c - 1, g) := by
  unfold IncProblem.removeOne at h
  have hcd : decr c = c - 1 := by unfold IncProblem.decr; rw [if_neg (by omega)]
  simp only [hd, Option.getD_some, hcd] at h
  rw [if_neg (by omega)] at h
  simp only [Res.state?, Option.some.injEq] at h
  subst h
  simp

theorem removeList_count_ne {d : DVId} : ∀ (l : List DVId) {q q' : IncProblem V}, d ∉ l →
    (removeList q l).state? = some q' → AL.get d q'.counts = AL.get d q.counts
  | [], q, q', _, h => by simp only [removeList, Res.state?, Option.some.injEq] at h; rw [h]
  | d1 :: l, q, q', hd, h => by
    have hd' : d ≠ d1 ∧ d ∉ l := by simpa using hd
    rw [removeList] at h
    rcases state?_bind h with ⟨u, q1, h1, h2⟩ | ⟨e, h1⟩
    · rw [removeList_count_ne l hd'.2 h2, removeOne_count_ne (Ne.symm hd'.1) (by rw [h1]; rfl : Res.state? _ = some q1)]
    · exact removeOne_count_ne (Ne.symm hd'.1) (by rw [h1]; rfl : Res.state? _ = some q')

theorem removeList_count {d : DVId} {c : Nat} {g : GroupId} : ∀ (l : List DVId) {q q' : IncProblem V}, l.Nodup →
    AL.get d q.counts = some (c, g) → (d ∈ l → 2 ≤ c) → (removeList q l).state? = some q' →
    AL.get d q'.counts = some (c, g) ∨ (AL.get d q'.counts = some (c - 1, g) ∧ d ∈ l)
  | [], q, q', _, hd, _, h => by
    simp only [removeList, Res.state?, Option.some.injEq] at h; rw [← h]; exact .inl hd
  | d1 :: l, q, q', hn, hd, hc, h => by
    have hn' := List.nodup_cons.1 hn
    rw [removeList] at h
    by_cases hdd : d1 = d
    · subst hdd
      have hc' := hc List.mem_cons_self
      rcases state?_bind h with ⟨u, q1, h1, h2⟩ | ⟨e, h1⟩
      · have h3 := removeOne_count_self hd hc' (by rw [h1]; rfl : Res.state? _ = some q1)
        rw [← removeList_count_ne l hn'.1 h2] at h3
        exact .inr ⟨h3, List.mem_cons_self⟩
      · exact .inr ⟨removeOne_count_self hd hc' (by rw [h1]; rfl : Res.state? _ = some q'), List.mem_cons_self⟩
    · rcases state?_bind h with ⟨u, q1, h1, h2⟩ | ⟨e, h1⟩
      · have h3 := removeOne_count_ne hdd (by rw [h1]; rfl : Res.state? _ = some q1)
        rcases removeList_count l hn'.2 (h3.trans hd) (fun hm => hc (List.mem_cons_of_mem _ hm)) h2 with h4 | ⟨h4, h5⟩
        · exact .inl h4
        · exact .inr ⟨h4, List.mem_cons_of_mem _ h5⟩
      · exact .inl ((removeOne_count_ne hdd (by rw [h1]; rfl : Res.state? _ = some q')).trans hd)

theorem removeOne_not_throw {q q' : IncProblem V} {d : DVId} {e : Exc} : q.removeOne d ≠ .throw e q' := by
  unfold IncProblem.removeOne
  simp only
  repeat' split
  all_goals simp

theorem removeList_not_throw {e : Exc} : ∀ (l : List DVId) {q q' : IncProblem V}, removeList q l ≠ .throw e q'
  | [], q, q' => by simp [removeList]
  | d :: l, q, q' => by
    rw [removeList]
    cases h : q.removeOne d with
    | ok a q1 => exact removeList_not_throw l
    | throw e' q1 => exact absurd h removeOne_not_throw
    | ub => simp [Res.bind]
    | diverge => simp [Res.bind]

theorem Leak.removeIdx {h : Heap V} {B : BatchId → OptProblem V} (hB : ∀ b, BInv h (B b)) {d : DVId} {k : Nat}
    {q q' : IncProblem V} {i : Nat} (h0 : Leak B d k q) (hs : (q.removeIdx B i).state? = some q') : Leak B d k q' := by
  obtain ⟨c, g, hc, hlt, hle⟩ := h0
  unfold IncProblem.removeIdx at hs
  cases hidx : q.problems[i]? with
  | none =>
    rw [hidx] at hs; simp only [Res.state?, Option.some.injEq] at hs
    subst hs; exact ⟨c, g, hc, hlt, hle⟩
  | some b =>
    rw [hidx] at hs; simp only at hs
    have hi := hB b
    have hlen : (B b).numDesignVariables = (elems (B b)).length := (elems_length hi).symm
    have hloop := removeLoop_eq hi (B b).numDesignVariables 0 q (by rw [hlen]; omega)
    rw [List.drop_zero] at hloop
    have hmem : d ∈ AL.keys (elems (B b)) ↔ d ∈ AL.keys (B b).lookup := (elems_perm hi).mem_iff
    have huse := useCount_eraseIdx B hidx d
    rcases state?_bind hs with ⟨u, q1, h1, h2⟩ | ⟨e, h1⟩
    · have hst : (removeList q (AL.keys (elems (B b)))).state? = some q1 := by rw [← hloop, h1]; rfl
      have r1 := removeLoop_rest (B b) _ 0 q (by rw [h1]; rfl : Res.state? _ = some q1)
      have hcnt := removeList_count (AL.keys (elems (B b))) (elems_nodup hi) hc (fun hm => by
        rw [if_pos (hmem.1 hm)] at huse; omega) hst
      simp only [Res.state?, Option.some.injEq] at h2
      subst h2
      rcases hcnt with h3 | ⟨h3, hm⟩
      · refine ⟨c, g, h3, ?_, hle⟩
        simp only [r1]
        split at huse <;> omega
      · refine ⟨c - 1, g, h3, ?_, by omega⟩
        simp only [r1]
        rw [if_pos (hmem.1 hm)] at huse
        omega
    · rw [hloop] at h1
      exact absurd h1 (removeList_not_throw _)

theorem Leak.mono {B : BatchId → OptProblem V} {d : DVId} {k k' : Nat} (hk : k ≤ k') {q : IncProblem V}
    (h : Leak B d k q) : Leak B d k' q := by
  obtain ⟨c, g, h1, h2, h3⟩ := h
  exact ⟨c, g, h1, h2, by omega⟩

theorem Leak.carried {h : Heap V} {B : BatchId → OptProblem V} (hB : ∀ b, BInv h (B b)) {d : DVId} {k : Nat}
    (hk : k < 2 ^ 64 - 1) : Carried (Leak B d k) (Leak B d (k + 1)) B where
  weaken _ h := h.mono (by omega)
  add _ _ _ h0 hs := h0.add hB hk hs
  removeP _ _ _ h0 hs := h0.removeIdx hB hs
  removeQ _ _ _ h0 hs := h0.removeIdx hB hs
  orderP _ _ h := h
  orderQ _ _ h := h
  backupQ _ _ h := h

end Verif
