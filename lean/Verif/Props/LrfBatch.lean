import Verif.Lemmas.LrfBatch
import Mathlib.Tactic.Ring

/-! C98: which states and measurements the batches of `simulate-online-new` and the problem of `simulate-offline` contain. -/

namespace Verif
namespace Lrf
variable {V : Type}

theorem filter_map_const {α : Type} (l : List α) (f : α → Var) (g g' : GroupId) :
    (((l.map fun a => (f a, g)).filter fun v : Var × GroupId => v.2 = g').map Prod.fst) = if g = g' then l.map f else [] := by
  by_cases h : g = g'
  · subst h
    rw [if_pos rfl, List.filter_eq_self.2 (by simp)]
    simp [Function.comp_def]
  · rw [if_neg h, List.filter_eq_nil_iff.2 (by simp [h])]
    rfl

theorem vars_filter (ad : Addr) (l : List (Var × GroupId)) (g : GroupId) :
    ((ad.vars l).filter fun v => v.2 = g).map Prod.fst = ((l.filter fun v => v.2 = g).map Prod.fst).map ad.var := by
  unfold Addr.vars
  rw [List.filter_map]
  simp [Function.comp_def]

/-- C98.  Building the batch that starts at state `i` never fails.  Its group 0 has the states `i` to `i + batchSize - 1` (less at
the end of the data), group 1 the landmarks and group 2 the calibration parameters; its error terms are, for every state but the
first, the motion from the state before and the observations of all landmarks. -/
theorem C98_batch {ad : Addr} {h : Heap V} (hw : Wired ad h) {steps bs nl i : Nat} (hi : i < steps) (hbs : 0 < bs) :
    ∃ p, buildBatch ad h steps bs nl i = .ok () p ∧
      p.getGroup 0 = .ok ((List.range' i (min bs (steps - i))).map fun k => ad.var (.state k)) () ∧
      p.getGroup 2 = .ok [ad.var .theta] () ∧
      (0 < nl → p.getGroup 1 = .ok ((List.range nl).map fun l => ad.var (.lm l)) ()) ∧
      p.getNumGroups = (if nl = 0 then 2 else 3) ∧
      p.errorTerms = ((List.range' (i + 1) (min bs (steps - i) - 1)).flatMap (stepTerms nl)).map ad.term := by
  obtain ⟨p, h1, h2⟩ := buildBatch_built hw steps bs nl i
  have hm : min (i + bs) steps - (i + 1) = min bs (steps - i) - 1 := by omega
  rw [hm] at h2
  obtain ⟨m, hm'⟩ : ∃ m, min bs (steps - i) = m + 1 := ⟨min bs (steps - i) - 1, by omega⟩
  rw [hm', Nat.add_sub_cancel] at h2 ⊢
  have hsnd : (batchVars nl i m).map Prod.snd = [0, 2] ++ List.replicate nl 1 ++ List.replicate m 0 := by
    simp [batchVars, List.map_const', Function.comp_def]
  have hg : ∀ g, g ∈ (batchVars nl i m).map Prod.snd →
      p.getGroup g = .ok ((((batchVars nl i m).filter fun v => v.2 = g).map Prod.fst).map ad.var) () := by
    intro g hg
    unfold OptProblem.getGroup
    rw [h2.groups g, ad.snd_vars, if_pos hg, vars_filter]
  have hf : ∀ g, ((batchVars nl i m).filter fun v => v.2 = g).map Prod.fst =
      (if g = 0 then [.state i] else []) ++ (if g = 2 then [.theta] else []) ++
        (if 1 = g then (List.range nl).map .lm else []) ++ if 0 = g then (List.range' (i + 1) m).map .state else [] := by
    intro g
    unfold batchVars
    rw [List.filter_append, List.filter_append, List.map_append, List.map_append, filter_map_const, filter_map_const]
    congr 2
    by_cases h0 : g = 0
    · subst h0; rfl
    · by_cases h2 : g = 2
      · subst h2; rfl
      · simp [h0, h2, Ne.symm h0, Ne.symm h2]
  refine ⟨p, h1, ?_, ?_, ?_, ?_, h2.terms⟩
  · rw [hg 0 (by rw [hsnd]; simp), hf]
    congr 1
    simp [List.range'_succ, Function.comp_def]
  · rw [hg 2 (by rw [hsnd]; simp), hf]
    simp
  · intro hnl
    rw [hg 1 (by rw [hsnd]; simp; omega), hf]
    simp [Function.comp_def]
  · unfold OptProblem.getNumGroups
    rw [h2.ordering, ad.snd_vars, hsnd]
    have hrep : ∀ (n g : Nat) (l : List Nat), g ∈ l → firsts (l ++ List.replicate n g) = firsts l := by
      intro n g l hg
      induction n with
      | zero => simp
      | succ n ih =>
        rw [List.replicate_succ', ← List.append_assoc, firsts_append_one, ih, if_pos]
        rw [mem_firsts]; exact hg
    rw [hrep m 0 _ (by simp)]
    rcases Nat.eq_zero_or_pos nl with h0 | h0
    · subst h0; rfl
    · obtain ⟨n', rfl⟩ := Nat.exists_eq_succ_of_ne_zero h0.ne'
      rw [if_neg (by omega), List.replicate_succ, show [0, 2] ++ (1 :: List.replicate n' 1) = [0, 2, 1] ++ List.replicate n' 1 by
        simp, hrep n' 1 _ (by simp)]
      rfl

/-- addresses for the examples. -/
def demoVar : Var → Nat
  | .theta => 0
  | .lm l => 2 * l + 1
  | .state k => 2 * k + 2

/-- addresses for the examples. -/
def demoTerm : Term → Nat
  | .motion k => 2 * k
  | .obs k l => 2 * Nat.pair k l + 1

theorem demoVar_inj : Function.Injective demoVar := by
  intro a b h
  cases a <;> cases b <;> simp only [demoVar] at h <;> first | rfl | (congr 1; omega)

theorem demoTerm_inj : Function.Injective demoTerm := by
  intro a b h
  cases a <;> cases b <;> simp only [demoTerm] at h
  · congr 1; omega
  · omega
  · omega
  · rename_i a a' b b'
    have : Nat.pair a a' = Nat.pair b b' := by omega
    obtain ⟨rfl, rfl⟩ := Nat.pair_eq_pair.1 this
    rfl

/-- addresses for the examples. -/
def demoAddr : Addr where
  var := demoVar
  term := demoTerm
  var_inj := demoVar_inj
  term_inj := demoTerm_inj

/-- a heap with these objects. -/
noncomputable def demoHeap : Heap Unit where
  active := fun _ => true
  minDim := fun _ => 3
  params := fun _ => ()
  etDVs := fun e => open Classical in
    if h : ∃ t, demoAddr.term t = e then h.choose.vars.map demoAddr.var else []
  etDim := fun _ => 3

theorem demo_wired : Wired demoAddr demoHeap := by
  intro t
  have h : ∃ t', demoAddr.term t' = demoAddr.term t := ⟨t, rfl⟩
  simp only [demoHeap]
  rw [dif_pos h, demoAddr.term_inj h.choose_spec]

example : ∃ p, buildBatch demoAddr demoHeap 5 2 1 2 = .ok () p ∧
    p.getGroup 0 = .ok ((List.range' 2 2).map fun k => demoAddr.var (.state k)) () := by
  obtain ⟨p, h1, h2, _⟩ := C98_batch demo_wired (steps := 5) (bs := 2) (nl := 1) (i := 2) (by norm_num) (by norm_num)
  exact ⟨p, h1, h2⟩

/-- C98, the loop over the data creates the batches starting at the multiples of the batch size below `steps`. -/
theorem C98_batch_starts {steps bs : Nat} (hbs : 0 < bs) :
    ∃ s, batchStarts steps bs = .ok () s ∧ (∀ i, i ∈ s.starts ↔ bs ∣ i ∧ i < steps) ∧ s.starts.Pairwise (· < ·) := by
  let n := (steps + bs - 1) / bs
  have hn : ∀ k, k < n ↔ k * bs < steps := by
    intro k
    constructor
    · intro hk
      have h1 : k + 1 ≤ (steps + bs - 1) / bs := hk
      rw [Nat.le_div_iff_mul_le hbs, Nat.add_mul, one_mul] at h1
      omega
    · intro hk
      show k + 1 ≤ (steps + bs - 1) / bs
      rw [Nat.le_div_iff_mul_le hbs, Nat.add_mul, one_mul]
      omega
  refine ⟨⟨n * bs, (List.range n).map (· * bs)⟩, ?_, ?_, ?_⟩
  · have := Loop.run_ok (fun s : StartSt => s.i < steps) (fun s => .ok () ⟨s.i + bs, s.starts ++ [s.i]⟩)
      (fun k => ⟨k * bs, (List.range k).map (· * bs)⟩) n
      (fun k hk => ⟨(hn k).1 hk, by simp [List.range_succ, Nat.add_mul]⟩)
      (by
        intro h
        exact absurd ((hn n).2 h) (by omega))
    unfold batchStarts
    simpa using this
  · intro i
    simp only [List.mem_map, List.mem_range]
    constructor
    · rintro ⟨k, hk, rfl⟩
      exact ⟨Nat.dvd_mul_left _ _, (hn k).1 hk⟩
    · rintro ⟨⟨k, rfl⟩, hi⟩
      refine ⟨k, (hn k).2 (by rw [Nat.mul_comm]; exact hi), Nat.mul_comm _ _⟩
  · rw [List.pairwise_map]
    refine List.pairwise_lt_range.imp ?_
    intro a b hab
    exact Nat.mul_lt_mul_of_pos_right hab hbs

example : ∃ s, batchStarts 5 2 = .ok () s ∧ (4 ∈ s.starts) ∧ ¬ 5 ∈ s.starts := by
  obtain ⟨s, h1, h2, _⟩ := C98_batch_starts (steps := 5) (bs := 2) (by norm_num)
  exact ⟨s, h1, (h2 4).2 (by decide), fun h => absurd ((h2 5).1 h) (by decide)⟩

/-- C98, a batch size of zero: the program creates batches forever. -/
theorem C98_zero_batch_size {steps : Nat} (h : 0 < steps) : batchStarts steps 0 = .diverge := by
  have := Loop.run_diverge (fun s : StartSt => s.i < steps) (fun s => .ok () ⟨s.i + 0, s.starts ++ [s.i]⟩)
    (fun k => ⟨0, List.replicate k 0⟩) (fun k => ⟨h, by simp [List.replicate_succ']⟩)
  unfold batchStarts
  simpa using this

example : batchStarts 5000 0 = .diverge := C98_zero_batch_size (by norm_num)

/-- C98, every state is in exactly one batch: the one that starts at the multiple of the batch size below it. -/
theorem C98_states_once {steps bs k : Nat} (hbs : 0 < bs) (hk : k < steps) :
    ∃! i, bs ∣ i ∧ i < steps ∧ k ∈ List.range' i (min bs (steps - i)) := by
  have hda := Nat.div_add_mod k bs
  have hlt := Nat.mod_lt k hbs
  refine ⟨bs * (k / bs), ⟨Nat.dvd_mul_right _ _, by omega, ?_⟩, ?_⟩
  · rw [List.mem_range'_1]; omega
  · rintro i ⟨⟨j, rfl⟩, h1, h2⟩
    rw [List.mem_range'_1] at h2
    have : k / bs = j := by
      rw [Nat.div_eq_iff hbs]
      constructor
      · rw [Nat.mul_comm]; omega
      · rw [Nat.mul_comm]; omega
    rw [this]

/-- C98 (partial), which measurements are used: the error terms of step `k` are in some batch exactly if `k` is not a multiple of
the batch size.  Missing: the measurements of the other steps, see `C98_first_measurements_dropped`. -/
theorem C98_measurements_partial {ad : Addr} {h : Heap V} (hw : Wired ad h) {steps bs nl k : Nat} (hbs : 0 < bs) (t : Term)
    (ht : t ∈ stepTerms nl k) :
    (∃ i p, bs ∣ i ∧ i < steps ∧ buildBatch ad h steps bs nl i = .ok () p ∧ ad.term t ∈ p.errorTerms) ↔
      k < steps ∧ ¬ bs ∣ k := by
  have hmem : ∀ i m, ad.term t ∈ ((List.range' (i + 1) m).flatMap (stepTerms nl)).map ad.term ↔ i + 1 ≤ k ∧ k < i + 1 + m := by
    intro i m
    rw [List.mem_map]
    constructor
    · rintro ⟨t', h1, h2⟩
      have := ad.term_inj h2
      subst this
      rw [List.mem_flatMap] at h1
      obtain ⟨k', h3, h4⟩ := h1
      rw [← stepTerms_step ht, stepTerms_step h4]
      simpa [List.mem_range'_1] using h3
    · intro h1
      exact ⟨t, List.mem_flatMap.2 ⟨k, by simpa [List.mem_range'_1] using h1, ht⟩, rfl⟩
  constructor
  · rintro ⟨i, p, ⟨j, rfl⟩, hi, hb, hm⟩
    obtain ⟨p', h1, _, _, _, _, h2⟩ := C98_batch hw (nl := nl) hi hbs
    rw [hb] at h1
    simp only [Res.ok.injEq, true_and] at h1
    subst h1
    rw [h2, hmem] at hm
    refine ⟨by omega, ?_⟩
    rintro ⟨q, rfl⟩
    have h3 : bs * j < bs * q := by omega
    have h4 : bs * q < bs * (j + 1) := by rw [Nat.mul_add, Nat.mul_one]; omega
    have h5 := Nat.lt_of_mul_lt_mul_left h3
    have h6 := Nat.lt_of_mul_lt_mul_left h4
    omega
  · rintro ⟨hk, hd⟩
    have hda := Nat.div_add_mod k bs
    have hlt := Nat.mod_lt k hbs
    have hmod : 0 < k % bs := Nat.pos_of_ne_zero fun h0 => hd (Nat.dvd_of_mod_eq_zero h0)
    obtain ⟨p', h1, _, _, _, _, h2⟩ := C98_batch hw (nl := nl) (show bs * (k / bs) < steps by omega) hbs
    refine ⟨_, p', Nat.dvd_mul_right _ _, by omega, h1, ?_⟩
    rw [h2, hmem]
    omega

/-- C98 is false for all measurements: the observations made at the first state of every batch are in no batch. -/
theorem C98_first_measurements_dropped {ad : Addr} {h : Heap V} (hw : Wired ad h) {steps bs nl k l : Nat} (hbs : 0 < bs)
    (hl : l < nl) (hk : bs ∣ k) :
    ¬ ∃ i p, bs ∣ i ∧ i < steps ∧ buildBatch ad h steps bs nl i = .ok () p ∧ ad.term (.obs k l) ∈ p.errorTerms := by
  intro h1
  exact ((C98_measurements_partial hw hbs (.obs k l) (by simp [stepTerms, hl])).1 h1).2 hk

example : ¬ ∃ i p, 200 ∣ i ∧ i < 5000 ∧ buildBatch demoAddr demoHeap 5000 200 17 i = .ok () p ∧
    demoAddr.term (.obs 400 3) ∈ p.errorTerms :=
  C98_first_measurements_dropped demo_wired (by norm_num) (by norm_num) (by norm_num)

example : ∃ i p, 200 ∣ i ∧ i < 5000 ∧ buildBatch demoAddr demoHeap 5000 200 17 i = .ok () p ∧
    demoAddr.term (.obs 401 3) ∈ p.errorTerms :=
  (C98_measurements_partial demo_wired (k := 401) (by norm_num) (.obs 401 3) (by simp [stepTerms])).2 ⟨by norm_num, by norm_num⟩

/-- the design variables of the offline problem in the order of addition. -/
def offlineVars (steps nl : Nat) : List (Var × GroupId) :=
  [(.theta, 2)] ++ ((List.range steps).map fun k => (.state k, 0)) ++ (List.range nl).map fun l => (.lm l, 1)

theorem offlineVars_nodup (steps nl : Nat) : ((offlineVars steps nl).map Prod.fst).Nodup := by
  have e : (offlineVars steps nl).map Prod.fst =
      [.theta] ++ ((List.range steps).map Var.state ++ (List.range nl).map Var.lm) := by
    simp [offlineVars, Function.comp_def]
  rw [e, List.nodup_append]
  refine ⟨by simp, ?_, ?_⟩
  · rw [List.nodup_append]
    refine ⟨?_, ?_, ?_⟩
    · rw [List.nodup_map_iff (fun a b h => by simpa using h)]; exact List.nodup_range
    · rw [List.nodup_map_iff (fun a b h => by simpa using h)]; exact List.nodup_range
    · intro a ha b hb
      simp only [List.mem_map] at ha hb
      obtain ⟨_, _, rfl⟩ := ha
      obtain ⟨_, _, rfl⟩ := hb
      simp
  · intro a ha b hb
    simp only [List.mem_singleton] at ha
    simp only [List.mem_append, List.mem_map] at hb
    subst ha
    rcases hb with ⟨_, _, rfl⟩ | ⟨_, _, rfl⟩ <;> simp

/-- C98, offline.  With at least one state and one landmark the whole problem is built: the calibration parameters are in the last group, all
states and landmarks are included and all measurements but those of step 0 (which has none) are used. -/
theorem C98_offline {ad : Addr} {h : Heap V} (hw : Wired ad h) {steps nl : Nat} (hs : 0 < steps) (hn : 0 < nl) :
    ∃ p, buildOffline ad h steps nl = .ok () p ∧ p.ordering = [0, 1, 2] ∧
      p.getGroup 0 = .ok ((List.range steps).map fun k => ad.var (.state k)) () ∧
      p.getGroup 1 = .ok ((List.range nl).map fun l => ad.var (.lm l)) () ∧
      p.getGroup 2 = .ok [ad.var .theta] () ∧
      p.errorTerms = ((List.range' 1 (steps - 1)).flatMap (stepTerms nl)).map ad.term := by
  obtain ⟨p1, h1, h2⟩ := addVars_built (V := V) (ad := ad) (vs := []) (offlineVars steps nl) (es := []) (p := OptProblem.empty)
    Built.empty (by simpa using offlineVars_nodup steps nl)
  rw [List.nil_append] at h2
  obtain ⟨s', rfl⟩ := Nat.exists_eq_succ_of_ne_zero hs.ne'
  obtain ⟨n', rfl⟩ := Nat.exists_eq_succ_of_ne_zero hn.ne'
  have hsnd : (offlineVars (s' + 1) (n' + 1)).map Prod.snd = [2, 0] ++ List.replicate s' 0 ++ [1] ++ List.replicate n' 1 := by
    simp [offlineVars, Function.comp_def, List.replicate_succ]
  have hrep : ∀ (n g : Nat) (l : List Nat), g ∈ l → firsts (l ++ List.replicate n g) = firsts l := by
    intro n g l hg
    induction n with
    | zero => simp
    | succ n ih =>
      rw [List.replicate_succ', ← List.append_assoc, firsts_append_one, ih, if_pos]
      rw [mem_firsts]; exact hg
  have hord : p1.ordering = [2, 0, 1] := by
    rw [h2.ordering, ad.snd_vars, hsnd, hrep n' 1 _ (by simp), firsts_append_one, hrep s' 0 _ (by simp)]
    rfl
  have hgrp : ∀ g, p1.isGroupInProblem g = true ↔ g ∈ (offlineVars (s' + 1) (n' + 1)).map Prod.snd := by
    intro g
    unfold OptProblem.isGroupInProblem AL.has
    rw [h2.groups, ad.snd_vars]
    by_cases hg : g ∈ (offlineVars (s' + 1) (n' + 1)).map Prod.snd <;>
      simp only [hg, if_true, if_false, Option.isSome_some, Option.isSome_none, Bool.false_eq_true]
  have hset : p1.setGroupsOrdering [0, 1, 2] = .ok () { p1 with ordering := [0, 1, 2] } := by
    unfold OptProblem.setGroupsOrdering
    rw [hord]
    have a0 := (hgrp 0).2 (by rw [hsnd]; simp)
    have a1 := (hgrp 1).2 (by rw [hsnd]; simp)
    have a2 := (hgrp 2).2 (by rw [hsnd]; simp)
    simp [OptProblem.checkOrdering, a0, a1, a2]
  -- adding terms does not look at the ordering
  have hterms : ∀ (l : List Term) (p q : OptProblem V), addTerms ad h l p = .ok () q →
      addTerms ad h l { p with ordering := [0, 1, 2] } = .ok () { q with ordering := [0, 1, 2] } := by
    intro l
    induction l with
    | nil =>
      intro p q hp
      simp only [addTerms, Res.ok.injEq, true_and] at hp
      subst hp; rfl
    | cons t l ih =>
      intro p q hp
      simp only [addTerms, addET_eq] at hp ⊢
      by_cases hc : ad.term t ∈ p.etLookup ∨ ¬ ∀ d ∈ h.etDVs (ad.term t), d ∈ AL.keys p.lookup
      · rw [if_pos hc] at hp
        simp [Res.bind] at hp
      · rw [if_neg hc] at hp
        rw [if_neg hc]
        exact ih _ _ hp
  obtain ⟨p2, h3, h4⟩ := addTerms_built hw (ts := []) (vs := offlineVars (s' + 1) (n' + 1))
    ((List.range' 1 (s' + 1 - 1)).flatMap (stepTerms (n' + 1))) (by simpa using h2)
    (by simpa using flat_nodup (n' + 1) _ List.nodup_range')
    (by
      intro t ht v hv
      have e : (offlineVars (s' + 1) (n' + 1)).map Prod.fst =
        [.theta] ++ ((List.range (s' + 1)).map Var.state ++ (List.range (n' + 1)).map Var.lm) := by
        simp [offlineVars, Function.comp_def]
      rw [e]
      simp only [List.cons_append, List.nil_append, List.mem_cons, List.mem_append, List.mem_map, List.mem_range]
      rw [List.mem_flatMap] at ht
      obtain ⟨k, hk, ht⟩ := ht
      rw [List.mem_range'_1] at hk
      simp only [stepTerms, List.mem_cons, List.mem_map, List.mem_range] at ht
      rcases ht with rfl | ⟨l, hl, rfl⟩
      · simp only [Term.vars, List.mem_cons, List.not_mem_nil, or_false] at hv
        rcases hv with rfl | rfl
        · right; left; exact ⟨k - 1, by omega, rfl⟩
        · right; left; exact ⟨k, by omega, rfl⟩
      · simp only [Term.vars, List.mem_cons, List.not_mem_nil, or_false] at hv
        rcases hv with rfl | rfl | rfl
        · right; left; exact ⟨k, by omega, rfl⟩
        · right; right; exact ⟨l, hl, rfl⟩
        · left; rfl)
  have hg : ∀ g, g ∈ (offlineVars (s' + 1) (n' + 1)).map Prod.snd → OptProblem.getGroup { p2 with ordering := [0, 1, 2] } g =
      .ok ((((offlineVars (s' + 1) (n' + 1)).filter fun v => v.2 = g).map Prod.fst).map ad.var) () := by
    intro g hg
    unfold OptProblem.getGroup
    simp only [h4.groups g, ad.snd_vars, if_pos hg, vars_filter]
  have hf : ∀ g, ((offlineVars (s' + 1) (n' + 1)).filter fun v => v.2 = g).map Prod.fst =
      (if g = 2 then [.theta] else []) ++ (if 0 = g then (List.range (s' + 1)).map .state else []) ++
        if 1 = g then (List.range (n' + 1)).map .lm else [] := by
    intro g
    unfold offlineVars
    rw [List.filter_append, List.filter_append, List.map_append, List.map_append, filter_map_const, filter_map_const]
    congr 2
    by_cases h2 : g = 2
    · subst h2; rfl
    · simp [h2, Ne.symm h2]
  refine ⟨{ p2 with ordering := [0, 1, 2] }, ?_, rfl, ?_, ?_, ?_, ?_⟩
  · unfold buildOffline
    have e : ([(.theta, 2)] ++ ((List.range (s' + 1)).map fun k => (.state k, 0)) ++
      (List.range (n' + 1)).map fun l => (.lm l, 1)) = offlineVars (s' + 1) (n' + 1) := rfl
    rw [e, h1]
    simp only [Res.bind, hset]
    exact hterms _ _ _ h3
  · rw [hg 0 (by rw [hsnd]; simp), hf]
    simp [Function.comp_def]
  · rw [hg 1 (by rw [hsnd]; simp), hf]
    simp [Function.comp_def]
  · rw [hg 2 (by rw [hsnd]; simp), hf]
    simp
  · simpa using h4.terms

example : ∃ p, buildOffline demoAddr demoHeap 5000 17 = .ok () p ∧ p.ordering = [0, 1, 2] := by
  obtain ⟨p, h1, h2, _⟩ := C98_offline demo_wired (steps := 5000) (nl := 17) (by norm_num) (by norm_num)
  exact ⟨p, h1, h2⟩

/-- C98, offline without landmarks (or without states): the ordering is refused and the program ends with an exception. -/
theorem C98_offline_needs_landmarks {ad : Addr} {h : Heap V} {steps nl : Nat} (hz : steps = 0 ∨ nl = 0) :
    ∃ p, buildOffline ad h steps nl = .throw .outOfBound p := by
  obtain ⟨p1, h1, h2⟩ := addVars_built (V := V) (ad := ad) (vs := []) (offlineVars steps nl) (es := []) (p := OptProblem.empty)
    Built.empty (by simpa using offlineVars_nodup steps nl)
  rw [List.nil_append] at h2
  have hlen : p1.ordering.length ≠ 3 := by
    have hrep : ∀ (n g : Nat) (l : List Nat), (firsts (l ++ List.replicate n g)).length ≤ (firsts l).length + 1 := by
      intro n g l
      have : firsts (l ++ List.replicate n g) = firsts l ∨ firsts (l ++ List.replicate n g) = firsts l ++ [g] := by
        induction n with
        | zero => left; simp
        | succ n ih =>
          rw [List.replicate_succ', ← List.append_assoc, firsts_append_one]
          rcases ih with ih | ih
          · rw [ih]
            split_ifs
            · left; rfl
            · right; rfl
          · rw [ih, if_pos (by simp)]; right; rfl
      rcases this with h | h <;> rw [h] <;> simp
    rw [h2.ordering, ad.snd_vars]
    rcases hz with rfl | rfl
    · have : (offlineVars 0 nl).map Prod.snd = [2] ++ List.replicate nl 1 := by
        simp [offlineVars, Function.comp_def]
      rw [this]
      have := hrep nl 1 [2]
      have e : (firsts [2]).length = 1 := rfl
      omega
    · have : (offlineVars steps 0).map Prod.snd = [2] ++ List.replicate steps 0 := by
        simp [offlineVars, Function.comp_def]
      rw [this]
      have := hrep steps 0 [2]
      have e : (firsts [2]).length = 1 := rfl
      omega
  refine ⟨p1, ?_⟩
  unfold buildOffline
  have e : ([(.theta, 2)] ++ ((List.range steps).map fun k => (.state k, 0)) ++
    (List.range nl).map fun l => (.lm l, 1)) = offlineVars steps nl := rfl
  rw [e, h1]
  have hset : p1.setGroupsOrdering [0, 1, 2] = .throw .outOfBound p1 := by
    unfold OptProblem.setGroupsOrdering
    rw [if_pos (by simpa using Ne.symm hlen)]
  simp only [Res.bind, hset]

example : ∃ p, buildOffline demoAddr demoHeap 5000 0 = .throw .outOfBound p := C98_offline_needs_landmarks (Or.inr rfl)

end Lrf
end Verif
