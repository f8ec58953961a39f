import Verif.Model.Singleton
import Mathlib.Data.List.Basic
import Mathlib.Tactic.Linarith

/-!
# C154: singletons
-/

namespace Verif
namespace Singleton

/-- The states a single thread reaches: also after a call that threw. -/
inductive Reach : St → Prop
  | fresh : Reach fresh
  | ok {s s' : St} {o : Op} {r : Option Nat} : Reach s → o.run s = .ok r s' → Reach s'
  | throw {s s' : St} {o : Op} {e : Exc} : Reach s → o.run s = .throw e s' → Reach s'

/-- at most one object exists, and the pointer points to it. -/
def Inv (s : St) : Prop := s.alive = s.instance_.toList ∧ ∀ o ∈ s.alive, o < s.next

theorem inv_fresh : Inv fresh := ⟨rfl, by simp [fresh]⟩

/-- all results of a call. -/
theorem run_cases {s : St} (h : Inv s) (o : Op) :
    match s.instance_, o with
    | none, .construct true | none, .getInstance true => o.run s = .ok (some s.next) ⟨some s.next, [s.next], s.next + 1⟩
    | none, .construct false | none, .getInstance false => o.run s = .throw .external ⟨none, [], s.next + 1⟩
    | none, .destroy _ => o.run s = .ub
    | some _, .construct _ => o.run s = .throw .invalidOperation s
    | some i, .getInstance _ => o.run s = .ok (some i) s
    | some i, .destroy j => o.run s = if j = i then .ok none ⟨none, [], s.next⟩ else .ub
    | _, .exists_ => o.run s = .ok none s := by
  obtain ⟨i, a, n⟩ := s
  obtain ⟨h1, -⟩ := h
  simp only at h1
  subst h1
  cases i with
  | none => rcases o with (_ | _) | _ | (_ | _) | _ <;> simp [Op.run, construct, getInstance, baseCtor, baseDtor, Res.bind]
  | some i =>
    rcases o with k | j | k | _
    · simp [Op.run, construct, baseCtor, Res.bind]
    · by_cases hj : j = i <;> simp [Op.run, baseDtor, Res.bind, hj]
    · simp [Op.run, getInstance, Res.bind]
    · simp [Op.run]

theorem Reach.inv {s : St} (h : Reach s) : Inv s := by
  have key : ∀ (s s' : St) (o : Op), Inv s → ((∃ r, o.run s = .ok r s') ∨ ∃ e, o.run s = .throw e s') → Inv s' := by
    intro s s' o hs hr
    have h := run_cases hs o
    have hs' := hs
    obtain ⟨i, a, n⟩ := s
    obtain ⟨h1, h2⟩ := hs
    simp only at h1 h2
    cases i with
    | none =>
      rcases o with (_ | _) | _ | (_ | _) | _ <;> simp only at h <;> rw [h] at hr <;> simp at hr <;> rw [← hr] <;>
        first | exact hs' | exact ⟨rfl, by simp⟩
    | some i =>
      have hi : i < n := h2 i (by simp [h1])
      rcases o with k | j | k | _ <;> simp only at h <;> rw [h] at hr
      · simp at hr; rw [← hr]; exact hs'
      · by_cases hj : j = i
        · simp [hj] at hr; rw [← hr]; exact ⟨rfl, by simp⟩
        · simp [hj] at hr
      · simp at hr; rw [← hr]; exact hs'
      · simp at hr; rw [← hr]; exact hs'
  induction h with
  | fresh => exact inv_fresh
  | ok _ hr ih => exact key _ _ _ ih (.inl ⟨_, hr⟩)
  | throw _ hr ih => exact key _ _ _ ih (.inr ⟨_, hr⟩)

/-- **C154** for one thread: after any history of constructions (failed ones included), destructions, `getInstance` and `exists` at most one object exists; `exists` says whether one does;
a construction is refused just if one exists, and changes nothing then; `getInstance` returns the object if there is one and else the one it constructs, and it fails just
if that construction does; it never dereferences a null pointer. -/
theorem C154_one_partial {s : St} (h : Reach s) :
    s.alive.length ≤ 1 ∧
    (exists_ s = true ↔ ∃ o, o ∈ s.alive) ∧
    (∀ k, construct k s = .throw .invalidOperation s ↔ ∃ o, o ∈ s.alive) ∧
    (∀ k o, o ∈ s.alive → getInstance k s = .ok o s) ∧
    (s.alive = [] → getInstance false s = .throw .external { s with next := s.next + 1 } ∧
      ∃ o s', getInstance true s = .ok o s' ∧ s'.alive = [o] ∧ ∀ k, getInstance k s' = .ok o s') ∧
    (∀ k, getInstance k s ≠ .ub) := by
  obtain ⟨h1, h2⟩ := h.inv
  obtain ⟨i, a, n⟩ := s
  simp only at h1 h2
  subst h1
  cases i with
  | none =>
    refine ⟨by simp, by simp [exists_], ?_, by simp, fun _ => ⟨?_, n, ⟨some n, [n], n + 1⟩, ?_, rfl, ?_⟩, ?_⟩
    · intro k; cases k <;> simp [construct, baseCtor, baseDtor, Res.bind]
    · simp [getInstance, construct, baseCtor, baseDtor, Res.bind]
    · simp [getInstance, construct, baseCtor, Res.bind]
    · intro k; simp [getInstance]
    · intro k; cases k <;> simp [getInstance, construct, baseCtor, baseDtor, Res.bind]
  | some i =>
    refine ⟨by simp, by simp [exists_], ?_, ?_, by simp, ?_⟩
    · intro k; simp [construct, baseCtor, Res.bind]
    · intro k o ho; simp at ho; simp [getInstance, ho]
    · intro k; simp [getInstance]

/-- a history with a failed construction, a refused one and a destruction. -/
example : ∃ s, Reach s ∧ s.alive = [1] ∧ ∃ s', Reach s' ∧ s'.alive = [] ∧ s'.next = 2 := by
  have a : Reach ⟨none, [], 1⟩ := .throw .fresh (o := .construct false) (e := .external) rfl
  have b : Reach ⟨some 1, [1], 2⟩ := .ok a (o := .getInstance true) (r := some 1) rfl
  have c : Reach ⟨some 1, [1], 2⟩ := .throw b (o := .construct true) (e := .invalidOperation) rfl
  exact ⟨_, c, rfl, _, .ok c (o := .destroy 1) (r := none) rfl, rfl, rfl⟩

/-- **C154** for threads, if the object exists before they start: in every schedule of any number of threads each call that has returned has returned that object,
no other object is constructed, and each thread is done after two steps of its own. -/
theorem C154_threads_partial {s : St} (h : Reach s) {o : Nat} (ho : o ∈ s.alive) (sched : List Nat) :
    let w := (Threads.mk s fun _ => .test).run sched
    w.st = s ∧ (∀ t r, w.pc t = .done r → r = .ok o) ∧ (∀ t, 2 ≤ sched.count t → w.pc t = .done (.ok o)) := by
  obtain ⟨h1, -⟩ := h.inv
  have hi : s.instance_ = some o := by
    rw [h1] at ho
    simpa using ho
  intro w
  have key : ∀ (sched : List Nat) (w : Threads) (c : Nat → Nat), w.st = s →
      (∀ t, (c t = 0 ∧ w.pc t = .test) ∨ (c t = 1 ∧ w.pc t = .deref) ∨ (2 ≤ c t ∧ w.pc t = .done (.ok o))) →
      (w.run sched).st = s ∧ ∀ t, (c t + sched.count t = 0 ∧ (w.run sched).pc t = .test) ∨
        (c t + sched.count t = 1 ∧ (w.run sched).pc t = .deref) ∨ (2 ≤ c t + sched.count t ∧ (w.run sched).pc t = .done (.ok o)) := by
    intro sched
    induction sched with
    | nil => intro w c h hc; exact ⟨h, fun t => by simpa [Threads.run] using hc t⟩
    | cons u us ih =>
      intro w c h hc
      have hs : (w.step u).st = s ∧ ∀ t, ((if t = u then c t + 1 else c t) = 0 ∧ (w.step u).pc t = .test) ∨
          ((if t = u then c t + 1 else c t) = 1 ∧ (w.step u).pc t = .deref) ∨
          (2 ≤ (if t = u then c t + 1 else c t) ∧ (w.step u).pc t = .done (.ok o)) := by
        rcases hc u with ⟨c1, c2⟩ | ⟨c1, c2⟩ | ⟨c1, c2⟩
        all_goals
          simp only [Threads.step, c2, h, hi, Option.isSome_some, if_true]
          refine ⟨by first | trivial | rfl | exact h, fun t => ?_⟩
          by_cases ht : t = u
          · subst ht; simp [c1, c2]; try omega
          · simp only [if_neg ht]; exact hc t
      obtain ⟨g1, g2⟩ := ih (w.step u) (fun t => if t = u then c t + 1 else c t) hs.1 hs.2
      refine ⟨g1, fun t => ?_⟩
      have g := g2 t
      have e : (if t = u then c t + 1 else c t) + us.count t = c t + (u :: us).count t := by
        rw [List.count_cons]
        by_cases ht : t = u
        · simp [ht]; omega
        · have : ¬ u = t := fun h => ht h.symm
          simp [ht, this]
      simp only [e] at g
      exact g
  obtain ⟨g1, g2⟩ := key sched ⟨s, fun _ => .test⟩ (fun _ => 0) rfl (fun _ => .inl ⟨rfl, rfl⟩)
  refine ⟨g1, fun t r hr => ?_, fun t ht => ?_⟩
  · rcases g2 t with ⟨-, a⟩ | ⟨-, a⟩ | ⟨-, a⟩
    · rw [a] at hr; cases hr
    · rw [a] at hr; cases hr
    · rw [a] at hr; cases hr; rfl
  · rcases g2 t with ⟨a, -⟩ | ⟨a, -⟩ | ⟨-, a⟩
    · omega
    · omega
    · exact a

example : ∃ s, Reach s ∧ 0 ∈ s.alive := ⟨_, .ok .fresh (o := .getInstance true) (r := some 0) rfl, by decide⟩

/-- how far a thread is. -/
def PC.rank : PC → Nat
  | .test => 0
  | .ctor => 1
  | .assign => 2
  | .deref => 3
  | .done _ => 4

/-- what holds in every schedule. -/
def TInv (w : Threads) : Prop :=
  (∀ o, w.st.instance_ = some o → o ∈ w.st.alive) ∧ (∀ t, w.pc t = .deref → w.st.instance_ ≠ none) ∧
  ∀ t, (∀ o, w.pc t = .done (.ok o) → o ∈ w.st.alive) ∧ ∀ e, w.pc t = .done (.error e) → e = .invalidOperation ∧ w.st.alive ≠ []

theorem step_tinv {w : Threads} (h : TInv w) (t : Nat) : TInv (w.step t) ∧ (∀ u, u ≠ t → (w.step t).pc u = w.pc u) ∧
    ((w.pc t).rank < ((w.step t).pc t).rank ∨ (w.pc t).rank = 4 ∧ ((w.step t).pc t).rank = 4) := by
  obtain ⟨h1, h2, h3⟩ := h
  cases hp : w.pc t with
  | test =>
    by_cases hi : w.st.instance_.isSome = true
    all_goals
      simp only [Threads.step, hp, hi, if_true, Bool.false_eq_true, if_false]
      refine ⟨⟨h1, fun u hu => ?_, fun u => ⟨fun o ho => ?_, fun e he => ?_⟩⟩, fun u hu => by simp [hu], .inl (by simp [PC.rank])⟩
      · by_cases ut : u = t
        · subst ut; first | (simp at hu; done) | (intro hn; simp only at hn; rw [hn] at hi; exact absurd hi (by simp))
        · simp only [if_neg ut] at hu; exact h2 u hu
      · by_cases ut : u = t
        · simp [ut] at ho
        · simp only [if_neg ut] at ho; exact (h3 u).1 o ho
      · by_cases ut : u = t
        · simp [ut] at he
        · simp only [if_neg ut] at he; exact (h3 u).2 e he
  | ctor =>
    by_cases hi : w.st.instance_.isSome = true
    · obtain ⟨i, hi'⟩ := Option.isSome_iff_exists.1 hi
      simp only [Threads.step, hp, hi, if_true]
      refine ⟨⟨h1, fun u hu => ?_, fun u => ⟨fun o ho => ?_, fun e he => ?_⟩⟩, fun u hu => by simp [hu], .inl (by simp [PC.rank])⟩
      · by_cases ut : u = t
        · simp [ut] at hu
        · simp only [if_neg ut] at hu; exact h2 u hu
      · by_cases ut : u = t
        · simp [ut] at ho
        · simp only [if_neg ut] at ho; exact (h3 u).1 o ho
      · by_cases ut : u = t
        · simp [ut] at he; exact ⟨he.symm, List.ne_nil_of_mem (h1 i hi')⟩
        · simp only [if_neg ut] at he; exact (h3 u).2 e he
    · simp only [Threads.step, hp, hi, Bool.false_eq_true, if_false]
      refine ⟨⟨h1, fun u hu => ?_, fun u => ⟨fun o ho => ?_, fun e he => ?_⟩⟩, fun u hu => by simp [hu], .inl (by simp [PC.rank])⟩
      · by_cases ut : u = t
        · simp [ut] at hu
        · simp only [if_neg ut] at hu; exact h2 u hu
      · by_cases ut : u = t
        · simp [ut] at ho
        · simp only [if_neg ut] at ho; exact (h3 u).1 o ho
      · by_cases ut : u = t
        · simp [ut] at he
        · simp only [if_neg ut] at he; exact (h3 u).2 e he
  | assign =>
    simp only [Threads.step, hp]
    refine ⟨⟨fun o ho => ?_, fun u hu => by simp, fun u => ⟨fun o ho => ?_, fun e he => ?_⟩⟩, fun u hu => by simp [hu], .inl (by simp [PC.rank])⟩
    · simp at ho; simp [ho]
    · by_cases ut : u = t
      · simp [ut] at ho
      · simp only [if_neg ut] at ho; exact List.mem_append_left _ ((h3 u).1 o ho)
    · by_cases ut : u = t
      · simp [ut] at he
      · simp only [if_neg ut] at he; exact ⟨((h3 u).2 e he).1, by simp⟩
  | deref =>
    obtain ⟨i, hi⟩ := Option.ne_none_iff_exists'.1 (h2 t hp)
    simp only [Threads.step, hp, hi]
    refine ⟨⟨by rw [hi] at h1; simpa [hi] using h1, fun u hu => by simp [hi], fun u => ⟨fun o ho => ?_, fun e he => ?_⟩⟩, fun u hu => by simp [hu],
      .inl (by simp [PC.rank])⟩
    · by_cases ut : u = t
      · simp [ut] at ho; rw [← ho]; exact h1 i hi
      · simp only [if_neg ut] at ho; exact (h3 u).1 o ho
    · by_cases ut : u = t
      · simp [ut] at he
      · simp only [if_neg ut] at he; exact (h3 u).2 e he
  | done r =>
    simp only [Threads.step, hp]
    exact ⟨⟨h1, h2, h3⟩, fun _ _ => trivial, .inr ⟨by simp [PC.rank], by simp [PC.rank]⟩⟩

/-- **C154** for threads that start with any reachable state, without assumption on the first call: in every schedule of any number of threads no call dereferences a null pointer,
each thread is done after four steps of its own, and what it returned exists; a call that failed was refused because an object exists. -/
theorem C154_threads_any {s : St} (h : Reach s) (sched : List Nat) :
    let w := (Threads.mk s fun _ => .test).run sched
    (∀ t, w.pc t = .deref → w.st.instance_ ≠ none) ∧ (∀ t o, w.pc t = .done (.ok o) → o ∈ w.st.alive) ∧
    (∀ t e, w.pc t = .done (.error e) → e = .invalidOperation ∧ w.st.alive ≠ []) ∧
    (∀ t, 4 ≤ sched.count t → ∃ r, w.pc t = .done r) := by
  obtain ⟨h1, -⟩ := h.inv
  have key : ∀ (sched : List Nat) (w : Threads), TInv w →
      TInv (w.run sched) ∧ ∀ t, min 4 ((w.pc t).rank + sched.count t) ≤ ((w.run sched).pc t).rank := by
    intro sched
    induction sched with
    | nil => intro w hw; exact ⟨hw, fun t => by simp [Threads.run]⟩
    | cons u us ih =>
      intro w hw
      obtain ⟨a1, a2, a3⟩ := step_tinv hw u
      obtain ⟨b1, b2⟩ := ih (w.step u) a1
      refine ⟨b1, fun t => ?_⟩
      refine le_trans ?_ (b2 t)
      rw [List.count_cons]
      by_cases ht : t = u
      · subst ht; simp only [beq_self_eq_true, if_true]; omega
      · have : ¬ u = t := fun h => ht h.symm
        simp [a2 t ht, this]
  intro w
  have h0 : TInv ⟨s, fun _ => .test⟩ := by
    refine ⟨fun o ho => ?_, fun t ht => (by simp at ht), fun t => ⟨fun o ho => (by simp at ho), fun e he => (by simp at he)⟩⟩
    simp only at ho ⊢
    rw [h1, ho]; simp
  obtain ⟨⟨-, g2, g3⟩, g4⟩ := key sched ⟨s, fun _ => .test⟩ h0
  refine ⟨g2, fun t => (g3 t).1, fun t => (g3 t).2, fun t ht => ?_⟩
  have hr := g4 t
  simp only [PC.rank] at hr
  have : 4 ≤ (w.pc t).rank := by
    refine le_trans ?_ hr; omega
  cases hp : w.pc t with
  | done r => exact ⟨r, rfl⟩
  | _ => rw [hp] at this; simp [PC.rank] at this

example : ∃ r, ((Threads.mk fresh fun _ => .test).run [0, 1, 0, 1, 0, 1, 0, 1]).pc 1 = .done r :=
  (C154_threads_any .fresh [0, 1, 0, 1, 0, 1, 0, 1]).2.2.2 1 (by decide)

/-- The full C154 is **false** for threads that race for the first call: two calls return different objects, both of which exist; and a call fails although an
object exists and no construction of a `C` failed. -/
theorem C154_race :
    (∃ sched, let w := (Threads.mk fresh fun _ => .test).run sched
      w.pc 0 = .done (.ok 0) ∧ w.pc 1 = .done (.ok 1) ∧ w.st.alive = [0, 1]) ∧
    (∃ sched, let w := (Threads.mk fresh fun _ => .test).run sched
      w.pc 0 = .done (.ok 0) ∧ w.pc 1 = .done (.error .invalidOperation) ∧ w.st.alive = [0]) :=
  ⟨⟨[0, 1, 0, 1, 0, 0, 1, 1], rfl, rfl, rfl⟩, ⟨[0, 1, 0, 0, 0, 1], rfl, rfl, rfl⟩⟩

end Singleton
end Verif
