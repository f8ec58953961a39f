import Verif.Lemmas.OnlineNew2

/-! One round of the incremental 2D laser calibration. -/

namespace Verif
namespace OnlineNew
open Lrf
variable {V F M : Type}
variable {c : Cfg V F M} {g : GroupId} {o : EstOptions F} {st0 : Stats F M} {h0 : Heap V} {s : St V F M} {i : Nat}
  {p : OptProblem V}

/-- the order of the groups in a batch. -/
theorem IsBatch.order (hp : IsBatch c i p) : p.ordering = if c.nl = 0 then [0, 2] else [0, 2, 1] := by
  rw [hp.ordering, c.ad.snd_vars]
  have hsnd : ∀ m, (batchVars c.nl i m).map Prod.snd = [0, 2] ++ List.replicate c.nl 1 ++ List.replicate m 0 := by
    intro m; simp [batchVars, List.map_const', Function.comp_def]
  have hrep : ∀ (n g : Nat) (l : List Nat), g ∈ l → firsts (l ++ List.replicate n g) = firsts l := by
    intro n g l hg
    induction n with
    | zero => simp
    | succ n ih =>
      rw [List.replicate_succ', ← List.append_assoc, firsts_append_one, ih, if_pos]
      rw [mem_firsts]; exact hg
  rw [hsnd, hrep _ 0 _ (by simp)]
  rcases Nat.eq_zero_or_pos c.nl with h | h
  · rw [h]; rfl
  · obtain ⟨n', hn'⟩ := Nat.exists_eq_succ_of_ne_zero h.ne'
    rw [hn', if_neg (by omega), List.replicate_succ, show [0, 2] ++ (1 :: List.replicate n' 1) = [0, 2, 1] ++ List.replicate n' 1 by
      simp, hrep n' 1 _ (by simp)]
    rfl

theorem order_add (nl : Nat) (hg : GroupOk nl g) (old : List GroupId) (ho : old = [] ∨ old = orderOf nl g) :
    g ∈ old ++ (if nl = 0 then [0, 2] else [0, 2, 1]).filter (fun x => decide (x ∉ old)) ∧
    margLast g (old ++ (if nl = 0 then [0, 2] else [0, 2, 1]).filter (fun x => decide (x ∉ old))) = orderOf nl g := by
  by_cases hn : nl = 0
  · rcases hg with rfl | rfl | ⟨rfl, h⟩
    · rcases ho with rfl | rfl <;> simp only [orderOf, hn, if_true] <;> decide
    · rcases ho with rfl | rfl <;> simp only [orderOf, hn, if_true] <;> decide
    · omega
  · rcases hg with rfl | rfl | ⟨rfl, h⟩ <;> rcases ho with rfl | rfl <;> simp only [orderOf, hn, if_false] <;> decide

/-- without a suitable group nothing can be eliminated last. -/
theorem order_bad (nl : Nat) (hg : ¬ GroupOk nl g) : g ∉ (if nl = 0 then [0, 2] else [0, 2, 1] : List GroupId) := by
  unfold GroupOk at hg
  push Not at hg
  by_cases hn : nl = 0
  · simp [hn, hg.1, hg.2.1]
  · simp only [hn, if_false, List.mem_cons, List.not_mem_nil, or_false]
    rintro (rfl | rfl | rfl)
    · exact hg.1 rfl
    · exact hg.2.1 rfl
    · have := hg.2.2 rfl; omega

theorem Inv.order' (hi : Inv c g o st0 h0 s) : s.w.est.inc.ordering = [] ∨ s.w.est.inc.ordering = orderOf c.nl g := by
  rw [hi.order]; split <;> simp

theorem getGroup_eq {q q' : IncProblem V} {g : GroupId} (h : q.getGroup g = q'.getGroup g) : AL.get g q.groups = AL.get g q'.groups := by
  unfold IncProblem.getGroup at h
  cases h1 : AL.get g q.groups <;> cases h2 : AL.get g q'.groups <;> simp [h1, h2] at h ⊢
  exact h

/-- which round is which. -/
theorem split_snoc {α : Type} {l : List α} {x : α} {pre : List α} {b : α} {post : List α} (h : l ++ [x] = pre ++ b :: post) :
    (pre = l ∧ b = x) ∨ ∃ post', l = pre ++ b :: post' := by
  rcases List.eq_nil_or_concat post with rfl | ⟨post', y, rfl⟩
  · left
    have := List.append_inj' h (by simp)
    simp at this
    exact ⟨this.1.symm, this.2.symm⟩
  · right
    refine ⟨post', ?_⟩
    have h' : l ++ [x] = (pre ++ b :: post') ++ [y] := by rw [h]; simp
    exact (List.append_inj' h' (by simp)).1

theorem accepted_length (l : List (Block V F M)) : (accepted l).length ≤ l.length := by
  unfold accepted; rw [List.length_map]; exact List.length_filter_le _ _

theorem Inv.round_ok (hi : Inv c g o st0 h0 s) (hw : Wired c.ad h0) (hbs : 0 < c.bs) (hg : GroupOk c.nl g)
    (hnew : i ∉ s.out.map Block.start) (hd : c.bs ∣ i) (hlt : i < c.steps) :
    (∃ s' b, round c i s = .ok () s' ∧ Inv c g o st0 h0 s' ∧ s'.out = s.out ++ [b] ∧ b.start = i) ∨
    ∃ s', round c i s = .throw .external s' ∧ s'.out = s.out ∧ Cause c s.out.length i := by
  obtain ⟨p, hbuild, hp, hb⟩ := isBatch (hi.wired hw) hlt hbs
  have hround : round c i s = match (handOver s i p).addBatch c.D c.m0 (c.oracle i) (c.buildOk i) (some i) false with
      | .ok r w' => .ok () ⟨w', s.out ++ [⟨i, s.w.heap.params (c.ad.var .theta), w'.heap.params (c.ad.var .theta),
        w'.est.inc.ordering, r⟩]⟩
      | .throw e w' => .throw e ⟨w', s.out⟩
      | .ub => .ub
      | .diverge => .diverge := by
    unfold round; rw [hbuild]; rfl
  rw [hround]
  by_cases hroom : s.w.est.inc.problems.length < IncProblem.maxBatches
  swap
  · obtain ⟨w', hf⟩ := hi.full hbs hnew hd hlt hp hb hroom
    right; rw [hf]
    refine ⟨_, rfl, rfl, .inl ?_⟩
    rw [hi.probs] at hroom
    have := accepted_length s.out
    omega
  have hadd := hi.addable hbs hnew hd hlt hp hb hroom
  have hE := hi.handed hnew hb
  obtain ⟨q1, hq1, hr, heff⟩ := addBatch_eff c.D c.m0 (c.oracle i) (c.buildOk i) hE.winv hadd false
  have hord : q1.ordering = s.w.est.inc.ordering ++
      (if c.nl = 0 then [0, 2] else [0, 2, 1]).filter (fun x => decide (x ∉ s.w.est.inc.ordering)) := by
    have := hr.ordering
    rw [show (handOver s i p).toWorld.B i = p from handOver_self s i p, hp.order] at this
    exact this
  obtain ⟨hgm, hlast⟩ := order_add c.nl hg _ hi.order'
  rw [← hord] at hgm hlast
  have hmg : (handOver s i p).est.margGroup = g := hi.marg
  have hpb : q1.problems = accepted s.out ++ [i] := by
    have := hr.problems
    rw [this, ← hi.probs]; rfl
  have hnp := hi.not_in hnew
  have hBi : ∀ j ∈ s.out.map Block.start, (handOver s i p).B j = s.w.B j := by
    intro j hj
    simp only [handOver]; rw [if_neg]; rintro rfl; exact hnew hj
  generalize hres : (handOver s i p).addBatch c.D c.m0 (c.oracle i) (c.buildOk i) (some i) false = res at heff
  have hlog : ∀ {w' : EWorld V F M} {r}, res = .ok r w' → EInv w' := by
    intro w' r h
    exact hE.add_inv hadd hr heff (ok := true) (w' := w') (by rw [h]; rfl)
  cases hcase : res with
  | ub =>
    rw [hcase] at heff
    cases heff with
    | rejected call srv sc mg gain idx h5 q2 L hcall hm h1 h2 hgn hk hh hidx hq2 hr2 hL _ hres' =>
      simp only at hres'; split at hres' <;> simp at hres'
  | diverge =>
    rw [hcase] at heff
    cases heff with
    | rejected call srv sc mg gain idx h5 q2 L hcall hm h1 h2 hgn hk hh hidx hq2 hr2 hL _ hres' =>
      simp only at hres'; split at hres' <;> simp at hres'
  | throw e w' =>
    right
    have he : e = .external ∧ Cause c s.out.length i := by
      rw [hcase] at heff
      cases heff with
      | noMarg hm => rw [hmg] at hm; exact absurd hgm hm
      | optThrows call hcall hm ht => exact ⟨rfl, .inr (.inl ⟨_, by rw [← hcall]; exact ht⟩)⟩
      | rejected call srv sc mg gain idx h5 q2 L hcall hm h1 h2 hgn hk hh hidx hq2 hr2 hL _ hres' =>
        simp only at hres'; split at hres'
        · simp at hres'
        · rename_i hno
          push Not at hno
          simp only [Res.throw.injEq] at hres'
          exact ⟨hres'.1, .inr (.inr (by simpa using hno.2))⟩
    obtain ⟨rfl, hc⟩ := he
    exact ⟨_, rfl, rfl, hc⟩
  | ok r w' =>
    left
    have hinv := hlog hcase
    refine ⟨_, _, rfl, ?_, rfl, rfl⟩
    have hsame : w'.B = (handOver s i p).B ∧ w'.heap = { h0 with params := w'.heap.params } := by
      have := Camera.addBatch_same (D := c.D) (m0 := c.m0) (oracle := c.oracle i) (buildOk := c.buildOk i) (force := false)
        (w := handOver s i p) (w' := w') (b := some i) (ok := true) (by rw [hres, hcase]; rfl)
      refine ⟨this.1, ?_⟩
      have e1 : w'.heap = { s.w.heap with params := w'.heap.params } := this.2
      rw [e1, hi.heap]
    have hstarts : ∀ j ∈ (s.out ++ [(⟨i, s.w.heap.params (c.ad.var .theta), w'.heap.params (c.ad.var .theta),
        w'.est.inc.ordering, r⟩ : Block V F M)]).map Block.start, c.bs ∣ j ∧ j < c.steps ∧ IsBatch c j (w'.B j) := by
      intro j hj
      rw [hsame.1]
      simp only [List.map_append, List.map_cons, List.map_nil, List.mem_append, List.mem_singleton] at hj
      rcases hj with hj | rfl
      · rw [hBi j hj]; exact hi.starts j hj
      · rw [handOver_self]; exact ⟨hd, hlt, hp⟩
    have hst : (handOver s i p).est.stats = prevStats st0 s.out := hi.stats
    have hop : (handOver s i p).est.options = o := hi.opts
    have hthB : p.isDVInProblem (c.ad.var .theta) = true := by
      unfold OptProblem.isDVInProblem
      rw [AL.has_iff, AL.mem_keys_iff]
      exact ⟨_, (hp.lookup_iff hb hlt hbs _ _).2 ⟨.theta, rfl, rfl, trivial⟩⟩
    have hlmB : ∀ l < c.nl, p.isDVInProblem (c.ad.var (.lm l)) = true := by
      intro l hl
      unfold OptProblem.isDVInProblem
      rw [AL.has_iff, AL.mem_keys_iff]
      exact ⟨_, (hp.lookup_iff hb hlt hbs _ _).2 ⟨.lm l, rfl, rfl, hl⟩⟩
    rw [hcase] at heff
    have hinp : (optInput (optWorld (handOver s i p) q1 false)).heap.params (c.ad.var .theta) =
        s.w.heap.params (c.ad.var .theta) := by
      simp only [optInput, optWorld_heap]; rfl
    have hrule : ∀ (srv : Srv F) (mg : Marginal F M) (gain : F),
        EWorld.keep c.D (handOver s i p).est.options (handOver s i p).est.stats gain srv mg false = true ↔
        (c.D.gt gain o.infoGainDelta = true ∨ mg.rankTheta > (prevStats st0 s.out).marginal.rankTheta) ∧
        (o.checkValidity = true → srv.iterations ≠ o.maxIterations ∧ c.D.ge srv.JFinal srv.JStart = false) := by
      intro srv mg gain
      rw [hst, hop]
      simp only [EWorld.keep, EWorld.solutionValid, Bool.or_false, Bool.and_eq_true, Bool.or_eq_true, decide_eq_true_eq,
        Bool.not_eq_true', Bool.and_eq_false_iff, Bool.or_eq_false_iff, decide_eq_false_iff_not]
      cases o.checkValidity <;> simp
    cases heff with
    | kept call srv sc mg gain hcall hm h1 h2 hgn hk =>
      have hacc : ∀ b : Block V F M, b.ret.batchAccepted = true → accepted (s.out ++ [b]) = accepted s.out ++ [b.start] := by
        intro b hb'; rw [accepted_append, hb']; rfl
      have hlastA : ∀ b : Block V F M, b.ret.batchAccepted = true → lastAccepted (s.out ++ [b]) = some b := by
        intro b hb'; rw [lastAccepted_append, hb']; rfl
      have hincs := optWorld_inc (handOver s i p) q1 false
      have hO : (optWorld (handOver s i p) q1 false).est.inc.ordering = orderOf c.nl g := by
        rw [hincs.2.2.2, hmg]; exact hlast
      refine ⟨hinv, hop, hmg, hsame.2, hstarts, ?_, ?_, ?_, ?_, ?_, ?_, ?_, ?_⟩
      · rw [hacc _ rfl]; exact hincs.1.trans hpb
      · intro g'
        rw [hacc _ rfl]
        simp only
        rw [hincs.2.2.1]
        exact hi.groups_add hbs hnew hd hlt hp hb hr g'
      · rw [hacc _ rfl, if_neg (by simp)]; exact hO
      · unfold prevStats; rw [hlastA _ rfl]; rfl
      · unfold prevTheta; rw [hlastA _ rfl]; rfl
      · rw [hlastA _ rfl]; simp
      · intro b hb'
        rw [hlastA _ rfl] at hb'
        obtain rfl := Option.some.inj hb'
        refine ⟨optInput (optWorld (handOver s i p) q1 false), by simp, ?_, ?_⟩
        · rw [hacc _ rfl]; exact hincs.1.trans hpb
        · intro d _
          simp only
          rw [hcall]
      · intro pre b post hs'
        rcases split_snoc hs' with ⟨rfl, rfl⟩ | ⟨post', h'⟩
        · refine ⟨⟨optInput (optWorld (handOver s i p) q1 false), sc, hincs.1.trans hpb, hinp, ?_, ?_, ?_, ?_⟩, ?_, ?_, ?_, ?_, ?_⟩
          · rw [← hcall]; exact h1
          · rw [← hcall]; exact h2
          · rw [← hop]
          · intro _; rw [← hcall]
          · simp only; rw [hgn, hst]
          · exact ⟨fun _ => (hrule srv mg gain).1 hk, fun _ => rfl⟩
          · exact hi.theta
          · unfold prevTheta; rw [hlastA _ rfl]; rfl
          · rw [hacc _ rfl, if_neg (by simp)]; exact hO
        · exact hi.dec pre b post' h'
    | rejected call srv sc mg gain idx h5 q2 L hcall hm h1 h2 hgn hk hh hidx hq2 hr2 hL _ hres' =>
      have hrej : r = ⟨false, gain, mg, EWorld.scaledOf c.m0 (handOver s i p).est.options sc, srv⟩ := by
        simp only at hres'
        split at hres'
        · simp only [Res.ok.injEq] at hres'; exact hres'.1
        · simp at hres'
      have hra : r.batchAccepted = false := by rw [hrej]
      obtain ⟨-, e2, -, e4, e5, e6, -, -, -, -, -, e12, e13, e14, e15, ⟨inp, e16, -⟩, -⟩ :=
        hE.rejected (.inl hnp) (hres.trans hcase) hra
      rw [handOver_self] at e15
      have hacc : ∀ b : Block V F M, b.ret = r → accepted (s.out ++ [b]) = accepted s.out := by
        intro b hb'; rw [accepted_append, hb', hra]; simp
      have hlastA : ∀ b : Block V F M, b.ret = r → lastAccepted (s.out ++ [b]) = lastAccepted s.out := by
        intro b hb'; rw [lastAccepted_append, hb', hra]; rfl
      have hth : w'.heap.params (c.ad.var .theta) = s.w.heap.params (c.ad.var .theta) := e15 _ (.inr hthB)
      have hlm : ∀ l < c.nl, w'.heap.params (c.ad.var (.lm l)) = s.w.heap.params (c.ad.var (.lm l)) :=
        fun l hl => e15 _ (.inr (hlmB l hl))
      have hO : w'.est.inc.ordering = if accepted s.out = [] then [] else orderOf c.nl g := e4.trans hi.order
      refine ⟨hinv, e13.trans hop, e14.trans hmg, hsame.2, hstarts, ?_, ?_, ?_, ?_, ?_, ?_, ?_, ?_⟩
      · rw [hacc _ rfl]; exact e2.trans hi.probs
      · intro g'
        rw [hacc _ rfl]
        have := getGroup_eq (e5 g')
        simp only
        rw [this]; exact hi.groups g'
      · rw [hacc _ rfl]; exact hO
      · unfold prevStats; rw [hlastA _ rfl]; exact e12.trans hi.stats
      · unfold prevTheta; rw [hlastA _ rfl]; exact hth.trans hi.theta
      · rw [hlastA _ rfl]
        intro hn l hl
        exact (hlm l hl).trans (hi.valsN hn l hl)
      · rw [hlastA _ rfl, hacc _ rfl]
        intro b hb'
        obtain ⟨inp', k1, k2, k3⟩ := hi.vals b hb'
        refine ⟨inp', ?_, k2, ?_⟩
        · simp only; rw [e16]; exact List.mem_append_left _ k1
        · intro d hd'
          simp only at hd'
          rw [e6] at hd'
          exact (e15 d (.inl hd')).trans (k3 d hd')
      · intro pre b post hs'
        rcases split_snoc hs' with ⟨rfl, rfl⟩ | ⟨post', h'⟩
        · refine ⟨⟨optInput (optWorld (handOver s i p) q1 false), sc, (optWorld_inc _ _ _).1.trans hpb, hinp, ?_, ?_, ?_, ?_⟩, ?_, ?_, ?_,
            ?_, ?_⟩
          · rw [← hcall, hrej]; exact h1
          · rw [← hcall, hrej]; exact h2
          · rw [← hop, hrej]
          · intro hx; rw [hra] at hx; simp at hx
          · simp only; rw [hrej]; simp only; rw [hgn, hst]
          · simp only; rw [hrej]; simp only; rw [← hrule, hk]
          · exact hi.theta
          · unfold prevTheta; rw [hlastA _ rfl]; exact hth.trans hi.theta
          · rw [hacc _ rfl]; exact hO
        · exact hi.dec pre b post' h'

/-- all rounds. -/
theorem Inv.rounds_ok (l : List Nat) (hi : Inv c g o st0 h0 s) (hw : Wired c.ad h0) (hbs : 0 < c.bs) (hg : GroupOk c.nl g)
    (hn : (s.out.map Block.start ++ l).Nodup) (hl : ∀ i ∈ l, c.bs ∣ i ∧ i < c.steps) :
    (∃ s', rounds c l s = .ok () s' ∧ Inv c g o st0 h0 s' ∧ s'.out.map Block.start = s.out.map Block.start ++ l) ∨
    ∃ s', rounds c l s = .throw .external s' ∧
      ∃ i l', s'.out.map Block.start ++ i :: l' = s.out.map Block.start ++ l ∧ Cause c s'.out.length i := by
  induction l generalizing s with
  | nil => left; exact ⟨s, rfl, hi, by simp⟩
  | cons i l ih =>
    have hnew : i ∉ s.out.map Block.start := fun h =>
      (List.nodup_append.1 hn).2.2 i h i (by simp) rfl
    rcases hi.round_ok hw hbs hg hnew (hl i (by simp)).1 (hl i (by simp)).2 with ⟨s', b, h1, h2, h3, h4⟩ | ⟨s', h1, h2, hc⟩
    · have hs' : s'.out.map Block.start ++ l = s.out.map Block.start ++ i :: l := by rw [h3]; simp [h4]
      simp only [rounds, h1, Res.bind]
      rcases ih h2 (by rw [hs']; exact hn) (fun j hj => hl j (by simp [hj])) with ⟨s2, k1, k2, k3⟩ | ⟨s2, k1, j, l', k2, k3⟩
      · left; exact ⟨s2, k1, k2, k3.trans hs'⟩
      · right; exact ⟨s2, k1, j, l', by rw [← hs']; exact k2, k3⟩
    · right
      simp only [rounds, h1, Res.bind]
      exact ⟨s', rfl, i, l, by rw [h2], by rw [h2]; exact hc⟩

theorem batchStarts_eq {steps bs : Nat} (hbs : 0 < bs) :
    ∃ b, batchStarts steps bs = .ok () b ∧ b.starts = (List.range ((steps + bs - 1) / bs)).map (· * bs) := by
  let n := (steps + bs - 1) / bs
  have hn : ∀ k, k < n ↔ k * bs < steps := by
    intro k
    constructor
    · intro hk
      have h1 : k + 1 ≤ (steps + bs - 1) / bs := hk
      rw [Nat.le_div_iff_mul_le hbs, Nat.add_mul, one_mul] at h1
      omega
    · intro hk
      show k + 1 ≤ (steps + bs - 1) / bs
      rw [Nat.le_div_iff_mul_le hbs, Nat.add_mul, one_mul]
      omega
  refine ⟨⟨n * bs, (List.range n).map (· * bs)⟩, ?_, rfl⟩
  have := Loop.run_ok (fun s : StartSt => s.i < steps) (fun s => .ok () ⟨s.i + bs, s.starts ++ [s.i]⟩)
    (fun k => ⟨k * bs, (List.range k).map (· * bs)⟩) n
    (fun k hk => ⟨(hn k).1 hk, by simp [List.range_succ, Nat.add_mul]⟩)
    (by
      intro h
      exact absurd ((hn n).2 h) (by omega))
  unfold batchStarts
  simpa using this

theorem mem_batchStarts {steps bs i : Nat} (hbs : 0 < bs) :
    i ∈ (List.range ((steps + bs - 1) / bs)).map (· * bs) ↔ bs ∣ i ∧ i < steps := by
  have hn : ∀ k, k < (steps + bs - 1) / bs ↔ k * bs < steps := by
    intro k
    rw [← Nat.succ_le_iff, Nat.le_div_iff_mul_le hbs, Nat.succ_mul]
    omega
  simp only [List.mem_map, List.mem_range]
  constructor
  · rintro ⟨k, hk, rfl⟩
    exact ⟨Nat.dvd_mul_left _ _, (hn k).1 hk⟩
  · rintro ⟨⟨k, rfl⟩, hi⟩
    refine ⟨k, (hn k).2 (by rw [Nat.mul_comm]; exact hi), Nat.mul_comm _ _⟩

theorem batchStarts_nodup (n : Nat) {bs : Nat} (hbs : 0 < bs) : ((List.range n).map (· * bs)).Nodup := by
  rw [List.nodup_map_iff (fun a b h => Nat.eq_of_mul_eq_mul_right hbs h)]
  exact List.nodup_range

end OnlineNew
end Verif
