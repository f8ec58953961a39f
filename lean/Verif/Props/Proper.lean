import Verif.Lemmas.Proper
import Verif.Props.CalibLib

/-! Property C126: on proper data no call of a calibrator is undefined, and every exception comes from the spline fitter or the
estimator (egomotion: or from a window without measurements of the reference sensor or with an unknown sensor). -/

namespace Verif
open Proper

theorem Answers.less {E B G : Type} {addBatch : E → B → Res E G} {X : Exc → Prop} :
    ∀ n e, Answers addBatch X (n + 1) e → Answers addBatch X n e
  | 0, _, _ => trivial
  | n + 1, e, h => fun b => by
    rcases h b with ⟨g, e', h1, h2⟩ | ⟨x, e', h1, hx, h2⟩
    · exact Or.inl ⟨g, e', h1, Answers.less n e' h2⟩
    · exact Or.inr ⟨x, e', h1, hx, Answers.less n e' h2⟩

theorem Answers.mono {E B G : Type} {addBatch : E → B → Res E G} {X Y : Exc → Prop} (hXY : ∀ x, X x → Y x) :
    ∀ n e, Answers addBatch X n e → Answers addBatch Y n e
  | 0, _, _ => trivial
  | n + 1, e, h => fun b => by
    rcases h b with ⟨g, e', h1, h2⟩ | ⟨x, e', h1, hx, h2⟩
    · exact Or.inl ⟨g, e', h1, Answers.mono hXY n e' h2⟩
    · exact Or.inr ⟨x, e', h1, hXY x hx, Answers.mono hXY n e' h2⟩

/-! ### The car calibrator -/

section car
variable {E G P : Type} {env : CarEnv E G P} {o : CarOpt} {X : Exc → Prop}

theorem car_provides : CProvides env (Answers env.addBatch fun x => X x ∨ ∃ e l n, env.fit e l n = some x)
    (fun x => X x ∨ ∃ e l n, env.fit e l n = some x) :=
  ⟨Answers.less, fun e l n x h => Or.inr ⟨e, l, n, h⟩, fun _ _ b h => h b⟩

theorem car_start {knots lo hi : Int} {I : Nat → E → Prop} {ops : List CarCal.Op} {e : E} (h : ∀ t ∈ (CarCal.added ops).map Meas.t, lo ≤ t ∧ t ≤ hi)
    (hp : (((CarCal.added ops).filter fun m => m.kind = .pose).map Meas.t).Pairwise (· < ·)) (hI : I ops.length e) :
    CarInv lo hi I (CarCal.init env e) ops :=
  ⟨Or.inl rfl, Or.inl rfl, fun m hm => h _ (List.mem_map_of_mem hm), by simp [CarCal.init], by simpa [CarCal.init] using hp, hI⟩

/-- **C126**, car: for every program – measurements of any sensors in any order, submissions and clearing of the buffers by hand, every
exception caught – in which the times of the poses increase and all times fit: if the estimator answers every batch, every call
returns or throws, and it throws only exceptions of the spline fitter or of the estimator. -/
theorem C126_car (e : E) (ops : List CarCal.Op) (hk : 0 ≤ o.knots) (ht : TimesFit o.knots ((CarCal.added ops).map Meas.t))
    (hp : (((CarCal.added ops).filter fun m => m.kind = .pose).map Meas.t).Pairwise (· < ·))
    (he : Answers env.addBatch X ops.length e) :
    ∃ outs s, runCaught (fun s op => CarCal.Op.run env o s op) (CarCal.init env e) ops = .ok outs s ∧ outs.length = ops.length ∧
      ∀ x, some x ∈ outs → X x ∨ ∃ e l n, env.fit e l n = some x := by
  obtain ⟨lo, hi, h1, h2, h3⟩ := ht
  exact runCaught_inv (CarInv lo hi _) _ (car_step car_provides h2 hk h3) ops _
    (car_start (knots := o.knots) h1 hp (Answers.mono (fun x hx => Or.inl hx) _ _ he))

end car

/-! ### The time delay calibrator -/

namespace TD
variable {E G P V : Type} {env : Env E G P V} {o : Opt} {X : Exc → Prop}

/-- buffered poses and those to come. -/
def ProperPoses (lo hi : Int) (w : Sensor → List Meas) (ms : List Meas) : Prop :=
  (∀ m ∈ w .pose, lo ≤ m.t ∧ m.t ≤ hi) ∧ (∀ m ∈ ms, lo ≤ m.t ∧ m.t ≤ hi) ∧
  ((w .pose ++ ms.filter fun m => decide (m.kind = .pose)).map Meas.t).Pairwise (· < ·)

theorem provides {lo hi : Int} (hk : 0 ≤ o.knots) (hkt : (o.knots : ℚ) * (((hi - lo : Int) : ℚ) / 10 ^ 9) ≤ 2147483647) :
    WProvides (cfg env o) (ProperPoses lo hi) (Answers env.addBatch fun x => X x ∨ ∃ e l n, env.fit e l n = some x)
      (fun x => X x ∨ ∃ e l n, env.fit e l n = some x) where
  push := by
    rintro w m ms ⟨h1, h2, h3⟩
    refine ⟨?_, fun x hx => h2 x (List.mem_cons_of_mem _ hx), ?_⟩
    · intro x hx
      unfold Win.push at hx
      split_ifs at hx
      · rcases List.mem_append.1 hx with hx | hx
        · exact h1 x hx
        · rw [List.mem_singleton.1 hx]; exact h2 m (by simp)
      · exact h1 x hx
    · unfold Win.push
      by_cases hkind : m.kind = .pose
      · rw [if_pos (show Sensor.pose = (cfg env o).kind m from hkind.symm), List.append_assoc]
        simpa [List.filter_cons, hkind] using h3
      · rw [if_neg (show ¬ Sensor.pose = (cfg env o).kind m from fun e => hkind (Eq.symm e))]
        simpa [List.filter_cons, hkind] using h3
  skip := by
    rintro w m ms ⟨h1, h2, h3⟩
    refine ⟨h1, fun x hx => h2 x (List.mem_cons_of_mem _ hx), ?_⟩
    exact h3.sublist (List.Sublist.map _ (List.Sublist.append (List.Sublist.refl _) ((List.sublist_cons_self m _).filter _)))
  clear := by
    rintro w ms ⟨h1, h2, h3⟩
    exact ⟨by simp, h2, h3.sublist (List.Sublist.map _ (by simp))⟩
  less := Answers.less
  prepare := by
    rintro n e w ms ⟨h1, h2, h3⟩ hI hready
    have h2' : 2 ≤ (w .pose).length := by
      have : ready w = true := hready
      unfold ready at this
      simp only [Bool.not_eq_true', decide_eq_false_iff_not, not_lt] at this
      exact this
    obtain ⟨k, hseg⟩ := td_segments hk h2' (h3.sublist (List.Sublist.map _ (List.sublist_append_left _ _))) h1 hkt
    change (∃ b e', prepare env o e w = .ok b e' ∧ _) ∨ ∃ x e', prepare env o e w = .throw x e' ∧ _
    unfold prepare initSplines
    rw [hseg]
    simp only
    cases hf : env.fit e (w .pose) k with
    | some x => exact Or.inr ⟨x, e, rfl, Or.inr ⟨_, _, _, hf⟩, hI⟩
    | none => exact Or.inl ⟨_, e, rfl, hI⟩
  addBatch := fun _ _ b h => h b

theorem proper_start {lo hi : Int} {I : Nat → E → Prop} {ops : List (Win.Op Meas)} {e : E}
    (h : ∀ t ∈ (Win.added ops).map Meas.t, lo ≤ t ∧ t ≤ hi)
    (hp : (((Win.added ops).filter fun m => decide (m.kind = .pose)).map Meas.t).Pairwise (· < ·)) (hI : I ops.length e) :
    WinInv (cfg env o) lo hi (ProperPoses lo hi) I (Win.init (cfg env o) e) ops :=
  ⟨Or.inl rfl, Or.inl rfl, fun m hm => h _ (List.mem_map_of_mem hm),
    ⟨by simp [Win.init], fun m hm => h _ (List.mem_map_of_mem hm), by simpa [Win.init] using hp⟩, hI⟩

/-- **C126**, time delay: the same. -/
theorem C126_time_delay (e : E) (ops : List (Win.Op Meas)) (hk : 0 ≤ o.knots) (ht : TimesFit o.knots ((Win.added ops).map Meas.t))
    (hp : (((Win.added ops).filter fun m => decide (m.kind = .pose)).map Meas.t).Pairwise (· < ·))
    (he : Answers env.addBatch X ops.length e) :
    ∃ outs s, runCaught (fun s op => Win.Op.run (cfg env o) s op) (Win.init (cfg env o) e) ops = .ok outs s ∧ outs.length = ops.length ∧
      ∀ x, some x ∈ outs → X x ∨ ∃ e l n, env.fit e l n = some x := by
  obtain ⟨lo, hi, h1, h2, h3⟩ := ht
  exact runCaught_inv (WinInv (cfg env o) lo hi _ _) _ (win_step (provides hk h3) h2) ops _
    (proper_start h1 hp (Answers.mono (fun x hx => Or.inl hx) _ _ he))

end TD

/-! ### The egomotion calibrator -/

namespace Ego
variable {T E G P V : Type} [Group T] {env : Env T E G P V} {o : Opt} {X : Exc → Prop}

/-- the beginnings and ends of all reference measurements fit. -/
def ProperRefs (o : Opt) (lo hi : Int) (w : Nat → List (Meas T)) (ms : List (Meas T)) : Prop :=
  (∀ m ∈ w o.ref, (lo ≤ m.t ∧ m.t ≤ hi) ∧ lo ≤ m.t - m.duration ∧ m.t - m.duration ≤ hi) ∧
  ∀ m ∈ ms, (lo ≤ m.t ∧ m.t ≤ hi) ∧ (m.sensor = o.ref → lo ≤ m.t - m.duration ∧ m.t - m.duration ≤ hi)

omit [Group T] in
theorem integrate_times [Group T] {lo hi : Int} : ∀ (ms : List (Meas T)) (acc : List (Int × T)) (prev : T),
    (∀ m ∈ ms, (lo ≤ m.t ∧ m.t ≤ hi) ∧ lo ≤ m.t - m.duration ∧ m.t - m.duration ≤ hi) → (∀ p ∈ acc, lo ≤ p.1 ∧ p.1 ≤ hi) →
    (∀ p ∈ (integrate ms acc prev).1, lo ≤ p.1 ∧ p.1 ≤ hi) ∧ ((ms ≠ [] ∨ acc ≠ []) → (integrate ms acc prev).1 ≠ [])
  | [], acc, prev, _, ha => ⟨ha, fun h => by rcases h with h | h; · exact absurd rfl h
                                             · exact h⟩
  | m :: ms, acc, prev, hm, ha => by
    have h0 := hm m (by simp)
    have := integrate_times ms ((if acc.isEmpty then [(m.t - m.duration, prev)] else acc) ++ [(m.t, prev * m.motion)]) (prev * m.motion)
      (fun x hx => hm x (List.mem_cons_of_mem _ hx)) (by
        intro p hp
        rcases List.mem_append.1 hp with hp | hp
        · split_ifs at hp
          · rw [List.mem_singleton.1 hp]; exact h0.2
          · exact ha p hp
        · rw [List.mem_singleton.1 hp]; exact h0.1)
    refine ⟨this.1, fun _ => this.2 (Or.inr (by simp))⟩

theorem provides {lo hi : Int} (hk : 0 ≤ o.knots) (hkt : (o.knots : ℚ) * (((hi - lo : Int) : ℚ) / 10 ^ 9) ≤ 2147483647) :
    WProvides (cfg env o) (ProperRefs o lo hi)
      (fun n (e : St T E) => Answers env.addBatch (fun x => X x ∨ x = .stdOutOfRange ∨ ∃ e l n, env.fit e l n = some x) n e.inner)
      (fun x => X x ∨ x = .stdOutOfRange ∨ ∃ e l n, env.fit e l n = some x) where
  push := by
    rintro w m ms ⟨h1, h2⟩
    refine ⟨?_, fun x hx => h2 x (List.mem_cons_of_mem _ hx)⟩
    intro x hx
    unfold Win.push at hx
    split_ifs at hx with hs
    · rcases List.mem_append.1 hx with hx | hx
      · exact h1 x hx
      · rw [List.mem_singleton.1 hx]; exact ⟨(h2 m (by simp)).1, (h2 m (by simp)).2 (Eq.symm hs)⟩
    · exact h1 x hx
  skip := fun w m ms h => ⟨h.1, fun x hx => h.2 x (List.mem_cons_of_mem _ hx)⟩
  clear := fun w ms h => ⟨by simp, h.2⟩
  less := fun n e h => Answers.less n e.inner h
  prepare := by
    rintro n e w ms ⟨h1, -⟩ hI -
    change (∃ b e', prepare env o e w = .ok b e' ∧ _) ∨ ∃ x e', prepare env o e w = .throw x e' ∧ _
    unfold prepare initSplines
    split_ifs with hemp
    · exact Or.inr ⟨_, e, rfl, Or.inr (Or.inl rfl), hI⟩
    · simp only
      have hne : w o.ref ≠ [] := by simpa using hemp
      obtain ⟨hr, hl⟩ := integrate_times (lo := lo) (hi := hi) (w o.ref) [] e.prev h1 (by simp)
      obtain ⟨k, hseg⟩ := ego_segments (inf := env.lroundInf) (n := (w o.ref).length) hk hr (hl (Or.inl hne)) hkt
      rw [hseg]
      simp only
      cases hf : env.fit e.inner (integrate (w o.ref) [] e.prev).1 k with
      | some x => exact Or.inr ⟨x, _, rfl, Or.inr (Or.inr ⟨_, _, _, hf⟩), hI⟩
      | none =>
        simp only
        split
        · exact Or.inr ⟨_, _, rfl, Or.inr (Or.inl rfl), hI⟩
        · exact Or.inl ⟨_, _, rfl, hI⟩
  addBatch := by
    intro n e b h
    change (∃ g e', addBatch env e b = .ok g e' ∧ _) ∨ ∃ x e', addBatch env e b = .throw x e' ∧ _
    unfold addBatch
    rcases h b with ⟨g, e', h1, h2⟩ | ⟨x, e', h1, hx, h2⟩
    · rw [h1]; exact Or.inl ⟨g, _, rfl, h2⟩
    · rw [h1]; exact Or.inr ⟨x, _, rfl, hx, h2⟩

theorem proper_start {lo hi : Int} {I : Nat → St T E → Prop} {ops : List (Win.Op (Meas T))} {e : St T E}
    (h : ∀ t ∈ (Win.added ops).map Meas.t ++ ((Win.added ops).filter fun m => decide (m.sensor = o.ref)).map (fun m => m.t - m.duration),
      lo ≤ t ∧ t ≤ hi) (hI : I ops.length e) :
    WinInv (cfg env o) lo hi (ProperRefs o lo hi) I (Win.init (cfg env o) e) ops := by
  have ha : ∀ m ∈ Win.added ops, lo ≤ m.t ∧ m.t ≤ hi := fun m hm =>
    h _ (List.mem_append_left _ (List.mem_map_of_mem hm))
  refine ⟨Or.inl rfl, Or.inl rfl, ha, ⟨by simp [Win.init], fun m hm => ⟨ha m hm, fun hs => h _ (List.mem_append_right _ ?_)⟩⟩, hI⟩
  exact List.mem_map.2 ⟨m, List.mem_filter.2 ⟨hm, by simpa using hs⟩, rfl⟩

/-- **C126**, egomotion: the same, without a condition on the order of the measurements; the times include the beginnings of the reference
measurements.  In addition calls throw `std::out_of_range` (because of a window without measurements of the reference sensor or
with a measurement of an unknown sensor, C74). -/
theorem C126_egomotion (e : St T E) (ops : List (Win.Op (Meas T))) (hk : 0 ≤ o.knots)
    (ht : TimesFit o.knots ((Win.added ops).map Meas.t ++
      ((Win.added ops).filter fun m => decide (m.sensor = o.ref)).map fun m => m.t - m.duration))
    (he : Answers env.addBatch X ops.length e.inner) :
    ∃ outs s, runCaught (fun s op => Win.Op.run (cfg env o) s op) (Win.init (cfg env o) e) ops = .ok outs s ∧ outs.length = ops.length ∧
      ∀ x, some x ∈ outs → X x ∨ x = .stdOutOfRange ∨ ∃ e l n, env.fit e l n = some x := by
  obtain ⟨lo, hi, h1, h2, h3⟩ := ht
  exact runCaught_inv (WinInv (cfg env o) lo hi _ _) _ (win_step (provides hk h3) h2) ops _
    (proper_start h1 (Answers.mono (fun x hx => Or.inl hx) _ _ he))

end Ego

/-! ### The estimator of the library -/

namespace CalibLib
variable {Y V F M : Type} {c : Env Y V F M} {g : GroupId} {o : EstOptions F} {mo : F} {h : Heap V}

theorem log_at_most {s s' : St Y V F M} {x : Y} (hs : (c.submit s x).state? = some s') : s'.log.length ≤ s.log.length + 1 := by
  unfold Env.submit at hs
  simp only at hs
  split at hs
  · split at hs <;> simp only [Res.state?, Option.some.injEq, reduceCtorEq] at hs <;> subst hs <;> simp
  · simp only [Res.state?, Option.some.injEq] at hs; subst hs; exact Nat.le_succ _
  · simp [Res.state?] at hs
  · simp [Res.state?] at hs

/-- **C126**: the estimator of the library answers every batch of a calibrator, and throws only exceptions of the optimizer or the
linear solver. -/
theorem C126_library_answers (hx : ∀ x, Good c x) (hc : 0 < c.ncal) (hg : g = 0 ∨ g = 1) :
    ∀ (n : Nat) (s : St Y V F M), Reach c (c.start mo g o h) s → s.log.length + n ≤ IncProblem.maxBatches →
      Answers c.submit (fun x => x = .external) n s
  | 0, _, _, _ => trivial
  | n + 1, s, hr, hl => fun b => by
    rcases C121_never_refused hx hc hg hr (by omega) b with ⟨r, s', h1⟩ | ⟨s', h1, -⟩
    · have hst : (c.submit s b).state? = some s' := by rw [h1]; rfl
      exact Or.inl ⟨r, s', h1, C126_library_answers hx hc hg n s' (.step hr hst) (by have := log_at_most hst; omega)⟩
    · have hst : (c.submit s b).state? = some s' := by rw [h1]; rfl
      exact Or.inr ⟨_, s', h1, rfl, C126_library_answers hx hc hg n s' (.step hr hst) (by have := log_at_most hst; omega)⟩

end CalibLib
end Verif
