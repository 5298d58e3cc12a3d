import Verif.Model.LineSearch
import Mathlib.Topology.Order.Compact
import Mathlib.Topology.Order.LocalExtr
import Mathlib.Analysis.SpecificLimits.Basic
/-!
# C45: golden section search
-/
set_option linter.unusedSectionVars false
namespace TooN.Line
open Set

/-! ## specification -/

/-- `f` decreases strictly from `lo` to `m` and increases strictly from `m` to `hi` -/
def Unimodal (f : ℝ → ℝ) (lo m hi : ℝ) : Prop :=
  lo ≤ m ∧ m ≤ hi ∧ StrictAntiOn f (Icc lo m) ∧ StrictMonoOn f (Icc m hi)

/-! ## lemmas -/

theorem g_pos : 0 < g := by
  have h : Real.sqrt 5 < 3 := by rw [Real.sqrt_lt' (by norm_num)]; norm_num
  unfold g; linarith

theorem g_lt : g < 1 / 2 := by
  have h : 2 < Real.sqrt 5 := by rw [Real.lt_sqrt (by norm_num)]; norm_num
  unfold g; linarith

/-- the golden section: `g = (1-g)²` -/
theorem g_sq : (1 - g) ^ 2 = g := by
  have h : Real.sqrt 5 ^ 2 = 5 := Real.sq_sqrt (by norm_num)
  unfold g; nlinarith

theorem gsLoop_some (f : ℝ → ℝ) (M : Int) (tol : ℝ) (fuel : Nat) (s r : GS) :
    gsLoop f M tol fuel s = some r ↔
      ∃ n < fuel, r = (gsStep f)^[n] s ∧ (∀ k < n, gsCond M tol ((gsStep f)^[k] s)) ∧ ¬ gsCond M tol r := by
  induction fuel generalizing s with
  | zero => simp [gsLoop]
  | succ n ih =>
    unfold gsLoop
    split
    · rename_i hc
      rw [ih]
      constructor
      · rintro ⟨k, hk, e, h1, h2⟩
        refine ⟨k + 1, by omega, by rw [Function.iterate_succ_apply]; exact e, ?_, h2⟩
        intro j hj
        cases j with
        | zero => exact hc
        | succ j => rw [Function.iterate_succ_apply]; exact h1 j (by omega)
      · rintro ⟨k, hk, e, h1, h2⟩
        cases k with
        | zero => exact absurd hc (by rw [e] at h2; exact h2)
        | succ k =>
          refine ⟨k, by omega, by rw [Function.iterate_succ_apply] at e; exact e, ?_, h2⟩
          intro j hj
          have := h1 (j + 1) (by omega)
          rwa [Function.iterate_succ_apply] at this
    · rename_i hc
      constructor
      · intro e
        obtain rfl := Option.some.inj e
        exact ⟨0, by omega, rfl, by omega, hc⟩
      · rintro ⟨k, hk, e, h1, h2⟩
        cases k with
        | zero => rw [e]; rfl
        | succ k => exact absurd (h1 0 (by omega)) hc

/-- what every state of the search satisfies -/
structure GInv (f : ℝ → ℝ) (a b c : ℝ) (s : GS) : Prop where
  lo : a ≤ s.a
  hi : s.c ≤ c
  o1 : s.a < s.x1
  o2 : s.x1 < s.x2
  o3 : s.x2 < s.c
  v1 : s.fx1 = f s.x1
  v2 : s.fx2 = f s.x2
  mem : ∀ t ∈ b :: s.log, a < t ∧ t < c ∧ min s.fx1 s.fx2 ≤ f t

theorem gsInit_inv (f : ℝ → ℝ) {a b c : ℝ} (h1 : a < b) (h2 : b < c) : GInv f a b c (gsInit f a b c (f b)) := by
  have gp := g_pos
  have gl := g_lt
  unfold gsInit
  split
  · have p1 : 0 < g * (b - a) := mul_pos gp (by linarith)
    have p2 : g * (b - a) < b - a := by nlinarith
    refine ⟨le_rfl, le_rfl, ?_, ?_, h2, rfl, rfl, ?_⟩
    · simp only; linarith
    · simp only; linarith
    · simp only [List.mem_cons, List.not_mem_nil, or_false]
      rintro t (rfl | rfl)
      · exact ⟨h1, h2, min_le_right _ _⟩
      · exact ⟨by linarith, by linarith, min_le_left _ _⟩
  · have p1 : 0 < g * (c - b) := mul_pos gp (by linarith)
    have p2 : g * (c - b) < c - b := by nlinarith
    refine ⟨le_rfl, le_rfl, h1, ?_, ?_, rfl, rfl, ?_⟩
    · simp only; linarith
    · simp only; linarith
    · simp only [List.mem_cons, List.not_mem_nil, or_false]
      rintro t (rfl | rfl)
      · exact ⟨h1, h2, min_le_left _ _⟩
      · exact ⟨by linarith, by linarith, min_le_right _ _⟩

theorem gsStep_inv (f : ℝ → ℝ) {a b c : ℝ} {s : GS} (h : GInv f a b c s) : GInv f a b c (gsStep f s) := by
  have gp := g_pos
  have gl := g_lt
  obtain ⟨lo, hi, o1, o2, o3, v1, v2, mem⟩ := h
  unfold gsStep
  split
  · rename_i hc
    have p1 : 0 < g * (s.c - s.x2) := mul_pos gp (by linarith)
    have p2 : g * (s.c - s.x2) < s.c - s.x2 := by nlinarith
    refine ⟨by simp only; linarith, hi, o2, ?_, ?_, v2, rfl, ?_⟩
    · simp only; linarith
    · simp only; linarith
    · intro t ht
      simp only [List.mem_cons] at ht
      have key : ∀ t ∈ b :: s.log, a < t ∧ t < c ∧ min s.fx2 (f (s.x2 + g * (s.c - s.x2))) ≤ f t := by
        intro t ht
        obtain ⟨q1, q2, q3⟩ := mem t ht
        rw [min_eq_right hc.le] at q3
        exact ⟨q1, q2, (min_le_left _ _).trans q3⟩
      rcases ht with rfl | rfl | ht
      · exact key t (by simp)
      · exact ⟨by linarith, by linarith, min_le_right _ _⟩
      · exact key t (by simp [ht])
  · rename_i hc
    push Not at hc
    have p1 : 0 < g * (s.x1 - s.a) := mul_pos gp (by linarith)
    have p2 : g * (s.x1 - s.a) < s.x1 - s.a := by nlinarith
    refine ⟨lo, by simp only; linarith, ?_, ?_, o2, rfl, v1, ?_⟩
    · simp only; linarith
    · simp only; linarith
    · intro t ht
      simp only [List.mem_cons] at ht
      have key : ∀ t ∈ b :: s.log, a < t ∧ t < c ∧ min (f (s.x1 - g * (s.x1 - s.a))) s.fx1 ≤ f t := by
        intro t ht
        obtain ⟨q1, q2, q3⟩ := mem t ht
        rw [min_eq_left hc] at q3
        exact ⟨q1, q2, (min_le_right _ _).trans q3⟩
      rcases ht with rfl | rfl | ht
      · exact key t (by simp)
      · exact ⟨by linarith, by linarith, min_le_left _ _⟩
      · exact key t (by simp [ht])

theorem iter_inv {α : Type} (P : α → Prop) (step : α → α) (hs : ∀ s, P s → P (step s)) {s : α} (h : P s) (n : Nat) :
    P (step^[n] s) := by
  induction n with
  | zero => exact h
  | succ n ih => rw [Function.iterate_succ_apply']; exact hs _ ih

theorem gs_inv (f : ℝ → ℝ) {a b c : ℝ} (h1 : a < b) (h2 : b < c) (n : Nat) :
    GInv f a b c ((gsStep f)^[n] (gsInit f a b c (f b))) :=
  iter_inv _ _ (fun _ => gsStep_inv f) (gsInit_inv f h1 h2) n

theorem gs_out {s : GS} {f : ℝ → ℝ} {a b c : ℝ} (h : GInv f a b c s) :
    (gsOut s).2.1 = f (gsOut s).1 ∧ s.a < (gsOut s).1 ∧ (gsOut s).1 < s.c ∧ (gsOut s).2.1 = min s.fx1 s.fx2 ∧
      (gsOut s).2.2 = s.log ∧ ((gsOut s).1 = s.x1 ∨ (gsOut s).1 = s.x2) := by
  obtain ⟨lo, hi, o1, o2, o3, v1, v2, mem⟩ := h
  unfold gsOut
  split
  · rename_i hc
    exact ⟨v1, o1, by simp only; linarith, (min_eq_left hc.le).symm, rfl, Or.inl rfl⟩
  · rename_i hc
    push Not at hc
    exact ⟨v2, by simp only; linarith, o3, (min_eq_right hc).symm, rfl, Or.inr rfl⟩

theorem goldenSection_some {f : ℝ → ℝ} {fuel : Nat} {a b c fb : ℝ} {M : Int} {tol : ℝ} {r : ℝ × ℝ × List ℝ}
    (h : goldenSection f fuel a b c fb M tol = some r) :
    ∃ n < fuel, r = gsOut ((gsStep f)^[n] (gsInit f a b c fb)) ∧
      (∀ k < n, gsCond M tol ((gsStep f)^[k] (gsInit f a b c fb))) ∧
      ¬ gsCond M tol ((gsStep f)^[n] (gsInit f a b c fb)) := by
  unfold goldenSection at h
  obtain ⟨s, hs, e⟩ := Option.map_eq_some_iff.1 h
  obtain ⟨n, hn, rfl, h1, h2⟩ := (gsLoop_some ..).1 hs
  exact ⟨n, hn, e.symm, h1, h2⟩

theorem gs_log (f : ℝ → ℝ) (a b c fb : ℝ) (n : Nat) :
    ((gsStep f)^[n] (gsInit f a b c fb)).log.length = n + 1 := by
  induction n with
  | zero => simp only [Function.iterate_zero, id]; unfold gsInit; split <;> rfl
  | succ n ih =>
    rw [Function.iterate_succ_apply']
    generalize (gsStep f)^[n] (gsInit f a b c fb) = s at ih
    unfold gsStep
    split <;> simp [ih]

/-! ## C45 -/

/-- The returned value is the function's value at the returned point, which lies inside the bracket; it is at most the
value at the middle point and at every point evaluated during the search, all of which lie inside the bracket. -/
theorem c45_best (f : ℝ → ℝ) (fuel : Nat) (a b c : ℝ) (M : Int) (tol : ℝ) (h1 : a < b) (h2 : b < c)
    (x y : ℝ) (log : List ℝ) (h : goldenSection f fuel a b c (f b) M tol = some (x, y, log)) :
    y = f x ∧ a < x ∧ x < c ∧ y ≤ f b ∧ x ∈ b :: log ∧ ∀ t ∈ log, a < t ∧ t < c ∧ y ≤ f t := by
  obtain ⟨n, hn, e, -, -⟩ := goldenSection_some h
  have hi := gs_inv f h1 h2 n
  obtain ⟨o1, o2, o3, o4, o5, o6⟩ := gs_out hi
  rw [← e] at o1 o2 o3 o4 o5 o6
  simp only at o1 o2 o3 o4 o5 o6
  have hmem : ∀ n, ((gsStep f)^[n] (gsInit f a b c (f b))).x1 ∈ b :: ((gsStep f)^[n] (gsInit f a b c (f b))).log ∧
      ((gsStep f)^[n] (gsInit f a b c (f b))).x2 ∈ b :: ((gsStep f)^[n] (gsInit f a b c (f b))).log := by
    intro n
    induction n with
    | zero => simp only [Function.iterate_zero, id]; unfold gsInit; split <;> simp
    | succ n ih =>
      rw [Function.iterate_succ_apply']
      generalize (gsStep f)^[n] (gsInit f a b c (f b)) = s at ih
      simp only [List.mem_cons] at ih
      unfold gsStep
      split <;> simp only [List.mem_cons] <;> tauto
  refine ⟨o1, lt_of_le_of_lt hi.lo o2, lt_of_lt_of_le o3 hi.hi, ?_, ?_, ?_⟩
  · rw [o4]; exact (hi.mem b (by simp)).2.2
  · rw [o5]
    rcases o6 with h | h <;> rw [h]
    · exact (hmem n).1
    · exact (hmem n).2
  · intro t ht
    rw [o4]
    exact hi.mem t (by rw [o5] at ht; simp [ht])

/-- Bracketing: when the search with `maxiterations ≥ 2` returns `x`, there is a bracket `a' < x < c'` inside `[a, c]`, no wider
than the relative tolerance, at whose ends the function is not smaller than the returned value; for continuous `f` it
contains a local minimiser, so `x` is that close to one. -/
theorem c45_bracket (f : ℝ → ℝ) (fuel : Nat) (a b c : ℝ) (M : Int) (tol : ℝ) (h1 : a < b) (h2 : b < c)
    (ha : f b < f a) (hc : f b < f c) (hM : 2 ≤ M) (ht : 0 ≤ tol)
    (x y : ℝ) (log : List ℝ) (h : goldenSection f fuel a b c (f b) M tol = some (x, y, log)) :
    ∃ a' c', a ≤ a' ∧ a' < x ∧ x < c' ∧ c' ≤ c ∧ y ≤ f a' ∧ y ≤ f c' ∧ c' - a' ≤ 2 * tol * max |a'| |c'| ∧
      (ContinuousOn f (Icc a c) → ∃ m, a' < m ∧ m < c' ∧ IsLocalMin f m) := by
  obtain ⟨n, hn, e, -, hstop⟩ := goldenSection_some h
  have hi := gs_inv f h1 h2 n
  obtain ⟨o1, o2, o3, o4, o5, o6⟩ := gs_out hi
  rw [← e] at o1 o2 o3 o4 o5 o6
  simp only at o1 o2 o3 o4 o5 o6
  have hend : ∀ n, min ((gsStep f)^[n] (gsInit f a b c (f b))).fx1 ((gsStep f)^[n] (gsInit f a b c (f b))).fx2 ≤
        f ((gsStep f)^[n] (gsInit f a b c (f b))).a ∧
      min ((gsStep f)^[n] (gsInit f a b c (f b))).fx1 ((gsStep f)^[n] (gsInit f a b c (f b))).fx2 ≤
        f ((gsStep f)^[n] (gsInit f a b c (f b))).c := by
    intro n
    induction n with
    | zero =>
      simp only [Function.iterate_zero, id]; unfold gsInit
      split
      · exact ⟨(min_le_right _ _).trans ha.le, (min_le_right _ _).trans hc.le⟩
      · exact ⟨(min_le_left _ _).trans ha.le, (min_le_left _ _).trans hc.le⟩
    | succ n ih =>
      rw [Function.iterate_succ_apply']
      have hi := gs_inv f h1 h2 n
      generalize (gsStep f)^[n] (gsInit f a b c (f b)) = s at ih hi
      unfold gsStep
      split
      · rename_i hlt
        rw [min_eq_right hlt.le] at ih
        refine ⟨(min_le_left _ _).trans ?_, (min_le_left _ _).trans ih.2⟩
        simp only
        rw [← hi.v1]; exact hlt.le
      · rename_i hlt
        push Not at hlt
        rw [min_eq_left hlt] at ih
        refine ⟨(min_le_right _ _).trans ih.1, (min_le_right _ _).trans ?_⟩
        simp only
        rw [← hi.v2]; exact hlt
  obtain ⟨q1, q2⟩ := hend n
  rw [← o4] at q1 q2
  set s := (gsStep f)^[n] (gsInit f a b c (f b)) with hs
  obtain ⟨lo, hi', p1, p2, p3, -, -, -⟩ := hi
  refine ⟨s.a, s.c, lo, o2, o3, hi', q1, q2, ?_, ?_⟩
  · have hw : |s.c - s.a| ≤ tol * (|s.x2| + |s.x1|) := by
      by_contra hh
      push Not at hh
      exact hstop ⟨hh, by omega⟩
    have b1 : |s.x1| ≤ max |s.a| |s.c| := abs_le_max_abs_abs p1.le (by linarith)
    have b2 : |s.x2| ≤ max |s.a| |s.c| := abs_le_max_abs_abs (by linarith) p3.le
    rw [abs_of_nonneg (by linarith)] at hw
    have : tol * (|s.x2| + |s.x1|) ≤ tol * (2 * max |s.a| |s.c|) := mul_le_mul_of_nonneg_left (by linarith) ht
    linarith
  · intro hcont
    obtain ⟨m, hm, hmin⟩ := (isCompact_Icc (a := s.a) (b := s.c)).exists_isMinOn (nonempty_Icc.2 (by linarith))
      (hcont.mono (Icc_subset_Icc lo hi'))
    have key : ∀ t, s.a < t → t < s.c → f t ≤ f m → IsLocalMin f t := by
      intro t t1 t2 h
      have : Icc s.a s.c ∈ nhds t := Icc_mem_nhds t1 t2
      filter_upwards [this] with z hz
      exact h.trans (hmin hz)
    rcases eq_or_lt_of_le hm.1 with em | l1
    · exact ⟨x, o2, o3, key x o2 o3 (by rw [← em, ← o1]; exact q1)⟩
    · rcases eq_or_lt_of_le hm.2 with em | l2
      · exact ⟨x, o2, o3, key x o2 o3 (by rw [em, ← o1]; exact q2)⟩
      · exact ⟨m, l1, l2, key m l1 l2 le_rfl⟩

theorem gs_unimodal (f : ℝ → ℝ) {a b c m : ℝ} (h1 : a < b) (h2 : b < c) (hu : Unimodal f a m c) (n : Nat) :
    ((gsStep f)^[n] (gsInit f a b c (f b))).a ≤ m ∧ m ≤ ((gsStep f)^[n] (gsInit f a b c (f b))).c := by
  obtain ⟨u1, u2, u3, u4⟩ := hu
  induction n with
  | zero => simp only [Function.iterate_zero, id]; unfold gsInit; split <;> exact ⟨u1, u2⟩
  | succ n ih =>
    rw [Function.iterate_succ_apply']
    have hi := gs_inv f h1 h2 n
    generalize (gsStep f)^[n] (gsInit f a b c (f b)) = s at ih hi
    obtain ⟨lo, hi', p1, p2, p3, v1, v2, -⟩ := hi
    unfold gsStep
    split
    · rename_i hlt
      refine ⟨?_, ih.2⟩
      by_contra hh
      push Not at hh
      simp only at hh
      have := u4 (a := s.x1) (b := s.x2) ⟨hh.le, by linarith⟩ ⟨by linarith, by linarith⟩ p2
      rw [v1, v2] at hlt
      linarith
    · rename_i hlt
      push Not at hlt
      refine ⟨ih.1, ?_⟩
      by_contra hh
      push Not at hh
      simp only at hh
      have := u3 (a := s.x1) (b := s.x2) ⟨by linarith, by linarith⟩ ⟨by linarith, hh.le⟩ p2
      rw [v1, v2] at hlt
      linarith

/-- For a unimodal function the returned point is within the tolerance of the minimiser: `m` is never lost. -/
theorem c45_unimodal (f : ℝ → ℝ) (fuel : Nat) (a b c m : ℝ) (M : Int) (tol : ℝ) (h1 : a < b) (h2 : b < c)
    (hu : Unimodal f a m c) (hM : 2 ≤ M) (ht : 0 ≤ tol)
    (x y : ℝ) (log : List ℝ) (h : goldenSection f fuel a b c (f b) M tol = some (x, y, log)) :
    |x - m| ≤ 2 * tol * max |a| |c| := by
  obtain ⟨n, hn, e, -, hstop⟩ := goldenSection_some h
  have hi := gs_inv f h1 h2 n
  obtain ⟨o1, o2, o3, o4, o5, o6⟩ := gs_out hi
  rw [← e] at o1 o2 o3 o4 o5 o6
  obtain ⟨m1, m2⟩ := gs_unimodal f h1 h2 hu n
  set s := (gsStep f)^[n] (gsInit f a b c (f b)) with hs
  obtain ⟨lo, hi', p1, p2, p3, -, -, -⟩ := hi
  have hw : |s.c - s.a| ≤ tol * (|s.x2| + |s.x1|) := by
    by_contra hh
    push Not at hh
    exact hstop ⟨hh, by omega⟩
  have b1 : |s.x1| ≤ max |a| |c| := abs_le_max_abs_abs (by linarith) (by linarith)
  have b2 : |s.x2| ≤ max |a| |c| := abs_le_max_abs_abs (by linarith) (by linarith)
  rw [abs_of_nonneg (by linarith)] at hw
  have : tol * (|s.x2| + |s.x1|) ≤ tol * (2 * max |a| |c|) := mul_le_mul_of_nonneg_left (by linarith) ht
  simp only at o2 o3
  rw [abs_le]
  constructor <;> linarith

/-! ### convergence -/

/-- golden ratio relations between the three gaps: either the right two or the left two are in golden ratio -/
structure Gaps (s : GS) : Prop where
  h : (s.c - s.x2) * (1 - g) = s.x2 - s.x1 ∧ (s.x1 - s.a) * g ≤ s.x2 - s.x1 ∨
      (s.x1 - s.a) * (1 - g) = s.x2 - s.x1 ∧ s.x2 - s.x1 ≤ s.c - s.x2
/-- mirror image of `Gaps` -/
structure Gaps' (s : GS) : Prop where
  h : (s.x1 - s.a) * (1 - g) = s.x2 - s.x1 ∧ (s.c - s.x2) * g ≤ s.x2 - s.x1 ∨
      (s.c - s.x2) * (1 - g) = s.x2 - s.x1 ∧ s.x2 - s.x1 ≤ s.x1 - s.a

theorem gaps_init (f : ℝ → ℝ) {a b c : ℝ} (h1 : a < b) (h2 : b < c) :
    Gaps (gsInit f a b c (f b)) ∨ Gaps' (gsInit f a b c (f b)) := by
  have gp := g_pos
  have gs := g_sq
  unfold gsInit
  rw [abs_of_pos (by linarith), abs_of_pos (by linarith)]
  split
  · rename_i hh
    refine Or.inr ⟨Or.inl ⟨?_, ?_⟩⟩ <;> simp only
    · linear_combination (b - a) * gs
    · nlinarith
  · rename_i hh
    push Not at hh
    refine Or.inl ⟨Or.inl ⟨?_, ?_⟩⟩ <;> simp only
    · linear_combination (c - b) * gs
    · nlinarith

theorem gaps_step (f : ℝ → ℝ) {a b c : ℝ} {s : GS} (hi : GInv f a b c s) (h : Gaps s) : Gaps (gsStep f s) := by
  have gp := g_pos
  have gl := g_lt
  have gs := g_sq
  obtain ⟨lo, hi', o1, o2, o3, -, -, -⟩ := hi
  unfold gsStep
  split
  · rcases h.h with ⟨e, i⟩ | ⟨e, i⟩
    · refine ⟨Or.inl ⟨?_, ?_⟩⟩ <;> simp only
      · linear_combination (s.c - s.x2) * gs
      · nlinarith
    · refine ⟨Or.inl ⟨?_, ?_⟩⟩ <;> simp only
      · linear_combination (s.c - s.x2) * gs
      · nlinarith
  · rcases h.h with ⟨e, i⟩ | ⟨e, i⟩
    · refine ⟨Or.inr ⟨?_, ?_⟩⟩ <;> simp only
      · linear_combination (s.x1 - s.a) * gs
      · nlinarith
    · refine ⟨Or.inr ⟨?_, ?_⟩⟩ <;> simp only
      · linear_combination (s.x1 - s.a) * gs
      · nlinarith

theorem gaps'_step (f : ℝ → ℝ) {a b c : ℝ} {s : GS} (hi : GInv f a b c s) (h : Gaps' s) : Gaps' (gsStep f s) := by
  have gp := g_pos
  have gl := g_lt
  have gs := g_sq
  obtain ⟨lo, hi', o1, o2, o3, -, -, -⟩ := hi
  unfold gsStep
  split
  · rcases h.h with ⟨e, i⟩ | ⟨e, i⟩
    · refine ⟨Or.inr ⟨?_, ?_⟩⟩ <;> simp only
      · linear_combination (s.c - s.x2) * gs
      · nlinarith
    · refine ⟨Or.inr ⟨?_, ?_⟩⟩ <;> simp only
      · linear_combination (s.c - s.x2) * gs
      · nlinarith
  · rcases h.h with ⟨e, i⟩ | ⟨e, i⟩
    · refine ⟨Or.inl ⟨?_, ?_⟩⟩ <;> simp only
      · linear_combination (s.x1 - s.a) * gs
      · nlinarith
    · refine ⟨Or.inl ⟨?_, ?_⟩⟩ <;> simp only
      · linear_combination (s.x1 - s.a) * gs
      · nlinarith

/-- right form of `Gaps` -/
def RForm (s : GS) : Prop := (s.c - s.x2) * (1 - g) = s.x2 - s.x1 ∧ (s.x1 - s.a) * g ≤ s.x2 - s.x1
/-- right form of `Gaps'` (mirrored) -/
def LForm (s : GS) : Prop := (s.x1 - s.a) * (1 - g) = s.x2 - s.x1 ∧ (s.c - s.x2) * g ≤ s.x2 - s.x1

theorem width_mono (f : ℝ → ℝ) {a b c : ℝ} {s : GS} (hi : GInv f a b c s) :
    (gsStep f s).c - (gsStep f s).a ≤ s.c - s.a := by
  obtain ⟨lo, hi', o1, o2, o3, -, -, -⟩ := hi
  unfold gsStep
  split <;> simp only <;> linarith

theorem width_R (f : ℝ → ℝ) {a b c : ℝ} {s : GS} (hi : GInv f a b c s) (h : RForm s) :
    (gsStep f (gsStep f s)).c - (gsStep f (gsStep f s)).a ≤ (1 - g) * (s.c - s.a) := by
  have gp := g_pos
  have gl := g_lt
  have gs := g_sq
  obtain ⟨lo, hi', o1, o2, o3, -, -, -⟩ := hi
  obtain ⟨e, i⟩ := h
  unfold gsStep
  split
  · split <;> simp only <;> nlinarith
  · split <;> simp only <;> nlinarith

theorem width_L (f : ℝ → ℝ) {a b c : ℝ} {s : GS} (hi : GInv f a b c s) (h : LForm s) :
    (gsStep f (gsStep f s)).c - (gsStep f (gsStep f s)).a ≤ (1 - g) * (s.c - s.a) := by
  have gp := g_pos
  have gl := g_lt
  have gs := g_sq
  obtain ⟨lo, hi', o1, o2, o3, -, -, -⟩ := hi
  obtain ⟨e, i⟩ := h
  unfold gsStep
  split
  · split <;> simp only <;> nlinarith
  · split <;> simp only <;> nlinarith

theorem to_R (f : ℝ → ℝ) {a b c : ℝ} {s : GS} (hi : GInv f a b c s)
    (h : (s.x1 - s.a) * (1 - g) = s.x2 - s.x1 ∧ s.x2 - s.x1 ≤ s.c - s.x2) : RForm (gsStep f s) := by
  have gp := g_pos
  have gl := g_lt
  have gs := g_sq
  obtain ⟨lo, hi', o1, o2, o3, -, -, -⟩ := hi
  obtain ⟨e, i⟩ := h
  unfold gsStep RForm
  split
  · refine ⟨?_, ?_⟩ <;> simp only
    · linear_combination (s.c - s.x2) * gs
    · nlinarith
  · refine ⟨?_, ?_⟩ <;> simp only
    · linear_combination (s.x1 - s.a) * gs - (1 - g) * e
    · nlinarith

theorem to_L (f : ℝ → ℝ) {a b c : ℝ} {s : GS} (hi : GInv f a b c s)
    (h : (s.c - s.x2) * (1 - g) = s.x2 - s.x1 ∧ s.x2 - s.x1 ≤ s.x1 - s.a) : LForm (gsStep f s) := by
  have gp := g_pos
  have gl := g_lt
  have gs := g_sq
  obtain ⟨lo, hi', o1, o2, o3, -, -, -⟩ := hi
  obtain ⟨e, i⟩ := h
  unfold gsStep LForm
  split
  · refine ⟨?_, ?_⟩ <;> simp only
    · linear_combination (s.c - s.x2) * gs - (1 - g) * e
    · nlinarith
  · refine ⟨?_, ?_⟩ <;> simp only
    · linear_combination (s.x1 - s.a) * gs
    · nlinarith

theorem width_three (f : ℝ → ℝ) {a b c : ℝ} {s : GS} (hi : GInv f a b c s) (h : Gaps s ∨ Gaps' s) :
    (gsStep f (gsStep f (gsStep f s))).c - (gsStep f (gsStep f (gsStep f s))).a ≤ (1 - g) * (s.c - s.a) := by
  have gl := g_lt
  have hi1 := gsStep_inv f hi
  have hi2 := gsStep_inv f hi1
  rcases h with h | h
  · rcases h.h with h | h
    · exact (width_mono f hi2).trans (width_R f hi h)
    · exact (width_R f hi1 (to_R f hi h)).trans (mul_le_mul_of_nonneg_left (width_mono f hi) (by linarith))
  · rcases h.h with h | h
    · exact (width_mono f hi2).trans (width_L f hi h)
    · exact (width_L f hi1 (to_L f hi h)).trans (mul_le_mul_of_nonneg_left (width_mono f hi) (by linarith))

theorem gaps_iter (f : ℝ → ℝ) {a b c : ℝ} (h1 : a < b) (h2 : b < c) (n : Nat) :
    Gaps ((gsStep f)^[n] (gsInit f a b c (f b))) ∨ Gaps' ((gsStep f)^[n] (gsInit f a b c (f b))) := by
  induction n with
  | zero => exact gaps_init f h1 h2
  | succ n ih =>
    rw [Function.iterate_succ_apply']
    have hi := gs_inv f h1 h2 n
    exact ih.imp (gaps_step f hi) (gaps'_step f hi)

/-- The bracket shrinks geometrically: after `3n` iterations its width is at most `(1-g)^n ≈ 0.618^n` times the first. -/
theorem c45_geometric (f : ℝ → ℝ) (a b c : ℝ) (h1 : a < b) (h2 : b < c) (n : Nat) :
    ((gsStep f)^[3 * n] (gsInit f a b c (f b))).c - ((gsStep f)^[3 * n] (gsInit f a b c (f b))).a ≤
      (1 - g) ^ n * (c - a) := by
  have gl := g_lt
  induction n with
  | zero => simp only [Nat.mul_zero, Function.iterate_zero, id, pow_zero]; unfold gsInit; split <;> simp
  | succ n ih =>
    have := width_three f (gs_inv f h1 h2 (3 * n)) (gaps_iter f h1 h2 (3 * n))
    rw [show 3 * (n + 1) = 3 * n + 1 + 1 + 1 by ring]
    simp only [Function.iterate_succ_apply']
    refine this.trans ?_
    rw [pow_succ, mul_comm ((1 - g) ^ n), mul_assoc]
    exact mul_le_mul_of_nonneg_left ih (by linarith)

/-- Termination: if the bracket does not contain `0`, the search returns after at most `3n+1` evaluations, where `n` is any
number with `(1-g)^n (c-a) ≤ 2 tol min(|a|,|c|)`. -/
theorem c45_returns (f : ℝ → ℝ) (a b c : ℝ) (M : Int) (tol : ℝ) (h1 : a < b) (h2 : b < c) (h0 : 0 < a ∨ c < 0)
    (n : Nat) (hn : (1 - g) ^ n * (c - a) ≤ 2 * tol * min |a| |c|) :
    ∃ x y log, goldenSection f (3 * n + 1) a b c (f b) M tol = some (x, y, log) ∧ log.length ≤ 3 * n + 1 := by
  have gl := g_lt
  set S : Nat → GS := fun k => (gsStep f)^[k] (gsInit f a b c (f b)) with hS
  have tp : 0 ≤ tol := by
    by_contra hh
    push Not at hh
    have h3 : 0 < (1 - g) ^ n * (c - a) := mul_pos (pow_pos (by linarith) _) (by linarith)
    have h4 : 0 ≤ min |a| |c| := le_min (abs_nonneg _) (abs_nonneg _)
    nlinarith
  have hex : ∃ k, ¬ gsCond M tol (S k) := by
    refine ⟨3 * n, fun hc => ?_⟩
    have hw := c45_geometric f a b c h1 h2 n
    obtain ⟨lo, hi', o1, o2, o3, -, -, -⟩ := gs_inv f h1 h2 (3 * n)
    have hc1 := hc.1
    change |(S (3 * n)).c - (S (3 * n)).a| > _ at hc1
    change (S (3 * n)).c - (S (3 * n)).a ≤ _ at hw
    change a ≤ (S (3 * n)).a at lo
    change (S (3 * n)).c ≤ c at hi'
    change (S (3 * n)).a < (S (3 * n)).x1 at o1
    change (S (3 * n)).x1 < (S (3 * n)).x2 at o2
    change (S (3 * n)).x2 < (S (3 * n)).c at o3
    generalize S (3 * n) = s at *
    rw [abs_of_pos (by linarith)] at hc1
    have : min |a| |c| ≤ |s.x1| ∧ min |a| |c| ≤ |s.x2| := by
      rcases h0 with h | h
      · rw [abs_of_pos h, abs_of_pos (show 0 < s.x1 by linarith), abs_of_pos (show 0 < s.x2 by linarith)]
        exact ⟨(min_le_left _ _).trans (by linarith), (min_le_left _ _).trans (by linarith)⟩
      · rw [abs_of_neg h, abs_of_neg (show s.x1 < 0 by linarith), abs_of_neg (show s.x2 < 0 by linarith)]
        exact ⟨(min_le_right _ _).trans (by linarith), (min_le_right _ _).trans (by linarith)⟩
    have : tol * (2 * min |a| |c|) ≤ tol * (|s.x2| + |s.x1|) := mul_le_mul_of_nonneg_left (by linarith) tp
    linarith
  classical
  have hle : Nat.find hex ≤ 3 * n := by
    by_contra hh
    push Not at hh
    -- the argument for `hex` shows that the loop has stopped by `3n`
    have hw := c45_geometric f a b c h1 h2 n
    have hc := not_not.1 (Nat.find_min hex hh)
    obtain ⟨lo, hi', o1, o2, o3, -, -, -⟩ := gs_inv f h1 h2 (3 * n)
    have hc1 := hc.1
    change |(S (3 * n)).c - (S (3 * n)).a| > _ at hc1
    change (S (3 * n)).c - (S (3 * n)).a ≤ _ at hw
    change a ≤ (S (3 * n)).a at lo
    change (S (3 * n)).c ≤ c at hi'
    change (S (3 * n)).a < (S (3 * n)).x1 at o1
    change (S (3 * n)).x1 < (S (3 * n)).x2 at o2
    change (S (3 * n)).x2 < (S (3 * n)).c at o3
    generalize S (3 * n) = s at *
    rw [abs_of_pos (by linarith)] at hc1
    have : min |a| |c| ≤ |s.x1| ∧ min |a| |c| ≤ |s.x2| := by
      rcases h0 with h | h
      · rw [abs_of_pos h, abs_of_pos (show 0 < s.x1 by linarith), abs_of_pos (show 0 < s.x2 by linarith)]
        exact ⟨(min_le_left _ _).trans (by linarith), (min_le_left _ _).trans (by linarith)⟩
      · rw [abs_of_neg h, abs_of_neg (show s.x1 < 0 by linarith), abs_of_neg (show s.x2 < 0 by linarith)]
        exact ⟨(min_le_right _ _).trans (by linarith), (min_le_right _ _).trans (by linarith)⟩
    have : tol * (2 * min |a| |c|) ≤ tol * (|s.x2| + |s.x1|) := mul_le_mul_of_nonneg_left (by linarith) tp
    linarith
  have hloop : gsLoop f M tol (3 * n + 1) (gsInit f a b c (f b)) = some (S (Nat.find hex)) := by
    rw [gsLoop_some]
    exact ⟨Nat.find hex, by omega, rfl, fun k hk => not_not.1 (Nat.find_min hex hk), Nat.find_spec hex⟩
  refine ⟨(gsOut (S (Nat.find hex))).1, (gsOut (S (Nat.find hex))).2.1, (gsOut (S (Nat.find hex))).2.2, ?_, ?_⟩
  · unfold goldenSection; rw [hloop]; rfl
  · rw [(gs_out (gs_inv f h1 h2 _)).2.2.2.2.1, gs_log]; omega

/-- such an `n` exists for every positive tolerance -/
theorem c45_returns_exists (f : ℝ → ℝ) (a b c : ℝ) (M : Int) (tol : ℝ) (h1 : a < b) (h2 : b < c) (h0 : 0 < a ∨ c < 0)
    (ht : 0 < tol) : ∃ fuel x y log, goldenSection f fuel a b c (f b) M tol = some (x, y, log) := by
  have gl := g_lt
  have gp := g_pos
  have hm : 0 < min |a| |c| := by
    rcases h0 with h | h
    · exact lt_min (abs_pos.2 h.ne') (abs_pos.2 (by linarith))
    · exact lt_min (abs_pos.2 (by linarith)) (abs_pos.2 h.ne)
  obtain ⟨n, hn⟩ := exists_pow_lt_of_lt_one (show 0 < 2 * tol * min |a| |c| / (c - a) by
    apply div_pos (by positivity) (by linarith)) (show 1 - g < 1 by linarith)
  rw [lt_div_iff₀ (by linarith)] at hn
  obtain ⟨x, y, log, h, -⟩ := c45_returns f a b c M tol h1 h2 h0 n hn.le
  exact ⟨_, x, y, log, h⟩

/-! ### `maxiterations` -/

/-- `maxiterations ≤ 1`: one evaluation, no iteration. -/
theorem c45_maxiterations_one (f : ℝ → ℝ) (fuel : Nat) (a b c fb : ℝ) (M : Int) (tol : ℝ) (hM : M ≤ 1) :
    ∃ x y t, goldenSection f (fuel + 1) a b c fb M tol = some (x, y, [t]) := by
  have : gsLoop f M tol (fuel + 1) (gsInit f a b c fb) = some (gsInit f a b c fb) := by
    unfold gsLoop
    rw [if_neg (by unfold gsCond; omega)]
  unfold goldenSection
  rw [this]
  unfold gsInit gsOut
  split <;> simp only [Option.map_some] <;> split <;> exact ⟨_, _, _, rfl⟩

/-- Above 1 the value of `maxiterations` makes no difference at all. -/
theorem c45_maxiterations_ignored_wrong (f : ℝ → ℝ) (fuel : Nat) (a b c fb : ℝ) (M M' : Int) (tol : ℝ) (hM : 2 ≤ M)
    (hM' : 2 ≤ M') : goldenSection f fuel a b c fb M tol = goldenSection f fuel a b c fb M' tol := by
  have : ∀ s, gsLoop f M tol fuel s = gsLoop f M' tol fuel s := by
    induction fuel with
    | zero => intro s; rfl
    | succ n ih =>
      intro s
      unfold gsLoop gsCond
      simp only [show (1 : Int) < M from by omega, show (1 : Int) < M' from by omega, and_true, ih]
  unfold goldenSection
  rw [this]

/-- With `maxiterations = 2` the search can evaluate the function more than any given number of times before it returns. -/
theorem c45_budget_exceeded_wrong (f : ℝ → ℝ) (a b c : ℝ) (h0 : 0 < a) (h1 : a < b) (h2 : b < c) (N : Nat) :
    ∃ tol > 0, ∃ fuel x y log, goldenSection f fuel a b c (f b) 2 tol = some (x, y, log) ∧ N < log.length := by
  -- a tolerance small enough for the first `N` states
  have hsmall : ∃ tol > 0, ∀ k < N, gsCond 2 tol ((gsStep f)^[k] (gsInit f a b c (f b))) := by
    induction N with
    | zero => exact ⟨1, one_pos, by omega⟩
    | succ n ih =>
      obtain ⟨tol, tp, ht⟩ := ih
      obtain ⟨lo, hi', o1, o2, o3, -, -, -⟩ := gs_inv f h1 h2 n
      have ht' : ∀ k < n, ∀ t ≤ tol, gsCond 2 t ((gsStep f)^[k] (gsInit f a b c (f b))) := by
        intro k hk t htt
        refine ⟨lt_of_le_of_lt ?_ (ht k hk).1, (ht k hk).2⟩
        exact mul_le_mul_of_nonneg_right htt (by positivity)
      generalize hs : (gsStep f)^[n] (gsInit f a b c (f b)) = s at *
      have hw : 0 < |s.c - s.a| := abs_pos.2 (by linarith)
      have hz : 0 < |s.x2| + |s.x1| + 1 := by positivity
      refine ⟨min tol (|s.c - s.a| / (|s.x2| + |s.x1| + 1)), lt_min tp (div_pos hw hz), ?_⟩
      intro k hk
      rcases Nat.lt_succ_iff_lt_or_eq.1 hk with h | rfl
      · exact ht' k h _ (min_le_left _ _)
      · rw [hs]
        refine ⟨?_, by norm_num⟩
        calc min tol (|s.c - s.a| / (|s.x2| + |s.x1| + 1)) * (|s.x2| + |s.x1|)
            ≤ |s.c - s.a| / (|s.x2| + |s.x1| + 1) * (|s.x2| + |s.x1|) :=
              mul_le_mul_of_nonneg_right (min_le_right _ _) (by positivity)
          _ < |s.c - s.a| := by
              rw [div_mul_eq_mul_div, div_lt_iff₀ hz]
              nlinarith
  obtain ⟨tol, tp, ht⟩ := hsmall
  obtain ⟨fuel, x, y, log, h⟩ := c45_returns_exists f a b c 2 tol h1 h2 (Or.inl h0) tp
  refine ⟨tol, tp, fuel, x, y, log, h, ?_⟩
  obtain ⟨n, hn, e, -, hstop⟩ := goldenSection_some h
  have hl : log = (gsOut ((gsStep f)^[n] (gsInit f a b c (f b)))).2.2 := by rw [← e]
  rw [hl, (gs_out (gs_inv f h1 h2 _)).2.2.2.2.1, gs_log]
  by_contra hh
  exact hstop (ht n (by omega))

/-- The tolerance is relative to the abscissa: for a unimodal function whose minimiser is `0` the search never returns, for any
tolerance up to 1/2 and any `maxiterations ≥ 2` (exact arithmetic). -/
theorem c45_never_returns_wrong (f : ℝ → ℝ) (fuel : Nat) (a b c : ℝ) (M : Int) (tol : ℝ) (h1 : a < b) (h2 : b < c)
    (hu : Unimodal f a 0 c) (hM : 2 ≤ M) (ht : tol ≤ 1 / 2) : goldenSection f fuel a b c (f b) M tol = none := by
  rw [← Option.not_isSome_iff_eq_none]
  intro hsome
  obtain ⟨r, hr⟩ := Option.isSome_iff_exists.1 hsome
  obtain ⟨n, hn, e, -, hstop⟩ := goldenSection_some hr
  apply hstop
  obtain ⟨m1, m2⟩ := gs_unimodal f h1 h2 hu n
  obtain ⟨lo, hi', o1, o2, o3, -, -, -⟩ := gs_inv f h1 h2 n
  generalize (gsStep f)^[n] (gsInit f a b c (f b)) = s at *
  refine ⟨?_, by omega⟩
  rw [abs_of_pos (show 0 < s.c - s.a by linarith)]
  have b1 : |s.x1| < s.c - s.a := by rw [abs_lt]; constructor <;> linarith
  have b2 : |s.x2| < s.c - s.a := by rw [abs_lt]; constructor <;> linarith
  have := mul_le_mul_of_nonneg_right ht (show 0 ≤ |s.x2| + |s.x1| by positivity)
  linarith

/-- The overload without `fb` evaluates the middle point itself: one more evaluation, same result. -/
theorem c45_overload (f : ℝ → ℝ) (fuel : Nat) (a b c : ℝ) (M : Int) (tol : ℝ) (x y : ℝ) (log : List ℝ) :
    goldenSection' f fuel a b c M tol = some (x, y, log ++ [b]) ↔
      goldenSection f fuel a b c (f b) M tol = some (x, y, log) := by
  unfold goldenSection'
  constructor
  · intro h
    obtain ⟨⟨x', y', l'⟩, hs, e⟩ := Option.map_eq_some_iff.1 h
    simp only [Prod.mk.injEq, List.append_cancel_right_eq] at e
    obtain ⟨rfl, rfl, rfl⟩ := e
    exact hs
  · intro h; rw [h]; rfl

/-! ### the hypotheses are met -/

theorem sq_unimodal (m lo hi : ℝ) (h1 : lo ≤ m) (h2 : m ≤ hi) : Unimodal (fun x => (x - m) ^ 2) lo m hi := by
  refine ⟨h1, h2, ?_, ?_⟩
  · rintro x ⟨x1, x2⟩ y ⟨y1, y2⟩ h
    simp only; nlinarith
  · rintro x ⟨x1, x2⟩ y ⟨y1, y2⟩ h
    simp only; nlinarith

/-- the search on `(x-2)²` between 1 and 4 started at 3 returns a point within `8 tol` of the minimiser -/
example (tol : ℝ) (ht : 0 < tol) : ∃ fuel x y log,
    goldenSection (fun x => (x - 2) ^ 2) fuel 1 3 4 1 100 tol = some (x, y, log) ∧ |x - 2| ≤ 8 * tol := by
  have e : (1 : ℝ) = (fun x : ℝ => (x - 2) ^ 2) 3 := by norm_num
  obtain ⟨fuel, x, y, log, h⟩ := c45_returns_exists (fun x => (x - 2) ^ 2) 1 3 4 100 tol (by norm_num) (by norm_num)
    (Or.inl (by norm_num)) ht
  have := c45_unimodal _ fuel 1 3 4 2 100 tol (by norm_num) (by norm_num) (sq_unimodal 2 1 4 (by norm_num) (by norm_num))
    (by norm_num) ht.le x y log h
  refine ⟨fuel, x, y, log, ?_, ?_⟩
  · norm_num at h ⊢; exact h
  · norm_num at this; linarith

/-- `x²` on `[-1, 2]` with the default-like tolerance and `maxiterations = 10` does not return -/
example (fuel : Nat) : goldenSection (fun x => (x - 0) ^ 2) fuel (-1) (1 / 2) 2 ((1 / 2 - 0) ^ 2) 10 (1 / 100000) = none :=
  c45_never_returns_wrong (fun x => (x - 0) ^ 2) fuel (-1) (1 / 2) 2 10 _ (by norm_num) (by norm_num)
    (sq_unimodal 0 (-1) 2 (by norm_num) (by norm_num)) (by norm_num) (by norm_num)

end TooN.Line
