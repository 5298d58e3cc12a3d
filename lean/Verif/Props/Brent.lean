import Verif.Props.GoldenSection
/-!
# C46: Brent's line search
-/
set_option linter.unusedSectionVars false
namespace TooN.Line
open Set

/-- what every state of the search satisfies -/
structure BInv (f : ℝ → ℝ) (a x b : ℝ) (s : BR) : Prop where
  lo : a ≤ s.a
  o1 : s.a ≤ s.x
  o2 : s.x ≤ s.b
  hi : s.b ≤ b
  vx : s.fx = f s.x
  vw : s.fw = f s.w
  vv : s.fv = f s.v
  mx : s.x ∈ s.log ++ [x]
  mw : s.w ∈ s.log ++ [x]
  mv : s.v ∈ s.log ++ [x]
  best : ∀ t ∈ s.log ++ [x], a ≤ t ∧ t ≤ b ∧ s.fx ≤ f t

theorem brGolden_in (s : BR) (h1 : s.a ≤ s.x) (h2 : s.x ≤ s.b) :
    s.a ≤ s.x + (brGolden s).1 ∧ s.x + (brGolden s).1 ≤ s.b := by
  have gp := g_pos
  have gl := g_lt
  unfold brGolden
  simp only
  split
  · constructor <;> nlinarith
  · constructor <;> nlinarith

/-- the new point lies in the bracket -/
theorem brMove_in (tol eps : ℝ) (s : BR) (h1 : s.a ≤ s.x) (h2 : s.x ≤ s.b) :
    s.a ≤ s.x + (brMove tol eps s).1 ∧ s.x + (brMove tol eps s).1 ≤ s.b := by
  unfold brMove
  simp only
  split
  · split
    · exact brGolden_in s h1 h2
    · rename_i hh
      push Not at hh
      exact ⟨hh.2.1, hh.2.2.1⟩
  · exact brGolden_in s h1 h2

theorem brInit_inv (f : ℝ → ℝ) {a x b : ℝ} (h1 : a ≤ x) (h2 : x ≤ b) : BInv f a x b (brInit a x b (f x)) := by
  refine ⟨le_rfl, h1, h2, le_rfl, rfl, rfl, rfl, ?_, ?_, ?_, ?_⟩ <;> simp [brInit, h1, h2]

theorem brStep_log (f : ℝ → ℝ) (tol eps : ℝ) (s : BR) :
    (brStep f tol eps s).log = (s.x + (brMove tol eps s).1) :: s.log := by
  unfold brStep
  simp only
  split_ifs <;> rfl

theorem brStep_inv (f : ℝ → ℝ) (tol eps : ℝ) {a x b : ℝ} {s : BR} (h : BInv f a x b s) :
    BInv f a x b (brStep f tol eps s) := by
  have hu := brMove_in tol eps s h.o1 h.o2
  obtain ⟨lo, o1, o2, hi, vx, vw, vv, mx, mw, mv, best⟩ := h
  unfold brStep
  simp only
  generalize (brMove tol eps s).1 = d at *
  generalize (brMove tol eps s).2 = e at *
  split_ifs with c1 c2 c3 c4 c5 c6 c7 c8
  all_goals
    refine ⟨?_, ?_, ?_, ?_, ?_, ?_, ?_, ?_, ?_, ?_, ?_⟩
  all_goals first
    | (simp only; first | assumption | rfl | linarith | done)
    | (simp only [List.cons_append, List.mem_cons, true_or]; done)
    | (simp only [List.cons_append, List.mem_cons]; right; assumption)
    | skip
  all_goals
    intro t ht
    simp only [List.cons_append, List.mem_cons] at ht
    rcases ht with rfl | ht
    · refine ⟨by linarith, by linarith, ?_⟩
      simp only
      first | exact le_rfl | linarith
    · obtain ⟨q1, q2, q3⟩ := best t ht
      refine ⟨q1, q2, ?_⟩
      simp only
      first | exact q3 | linarith

theorem brLoop_inv (P : BR → Prop) (f : ℝ → ℝ) (tol eps : ℝ) (hs : ∀ s, P s → P (brStep f tol eps s)) (n : Nat) (s : BR)
    (h : P s) : P (brLoop f tol eps n s) := by
  induction n generalizing s with
  | zero => exact h
  | succ n ih =>
    unfold brLoop
    split
    · exact ih _ (hs _ h)
    · exact h

/-! ## C46 -/

/-- The returned value is the function's value at the returned point, which lies in the bracket; it is at most the value at
the middle point and at every point evaluated during the search, and all of these lie in the bracket. -/
theorem c46_best (f : ℝ → ℝ) (a x b : ℝ) (M : Int) (tol eps : ℝ) (h1 : a ≤ x) (h2 : x ≤ b) :
    (brent f a x b (f x) M tol eps).2.1 = f (brent f a x b (f x) M tol eps).1 ∧
      a ≤ (brent f a x b (f x) M tol eps).1 ∧ (brent f a x b (f x) M tol eps).1 ≤ b ∧
      (brent f a x b (f x) M tol eps).2.1 ≤ f x ∧
      (brent f a x b (f x) M tol eps).1 ∈ (brent f a x b (f x) M tol eps).2.2 ++ [x] ∧
      ∀ t ∈ (brent f a x b (f x) M tol eps).2.2,
        a ≤ t ∧ t ≤ b ∧ (brent f a x b (f x) M tol eps).2.1 ≤ f t := by
  have h := brLoop_inv (BInv f a x b) f tol eps (fun s hs => brStep_inv f tol eps hs) M.toNat _ (brInit_inv f h1 h2)
  unfold brent
  simp only
  generalize brLoop f tol eps M.toNat (brInit a x b (f x)) = s at h
  obtain ⟨lo, o1, o2, hi, vx, vw, vv, mx, mw, mv, best⟩ := h
  exact ⟨vx, lo.trans o1, o2.trans hi, (best x (by simp)).2.2, mx, fun t ht => best t (by simp [ht])⟩

/-- The search makes at most `maxiterations` evaluations (none if `maxiterations ≤ 0`), for every function, start values and
tolerances; in particular it always returns. -/
theorem c46_evaluations (f : ℝ → ℝ) (a x b fx : ℝ) (M : Int) (tol eps : ℝ) :
    ((brent f a x b fx M tol eps).2.2.length : Int) ≤ max M 0 := by
  have : ∀ n s, (brLoop f tol eps n s).log.length ≤ s.log.length + n := by
    intro n
    induction n with
    | zero => intro s; exact le_rfl
    | succ n ih =>
      intro s
      unfold brLoop
      split
      · refine (ih _).trans ?_
        rw [brStep_log]; simp; omega
      · omega
  have h := this M.toNat (brInit a x b fx)
  unfold brent
  simp only
  simp only [brInit, List.length_nil, Nat.zero_add] at h ⊢
  omega

/-- If it returns having made fewer than `maxiterations` evaluations, the final bracket around the returned point is within
tolerance. -/
theorem c46_tolerance (f : ℝ → ℝ) (a x b : ℝ) (M : Int) (tol eps : ℝ) (h1 : a ≤ x) (h2 : x ≤ b)
    (hl : ((brent f a x b (f x) M tol eps).2.2.length : Int) < M) :
    ∃ a' b', a ≤ a' ∧ a' ≤ (brent f a x b (f x) M tol eps).1 ∧ (brent f a x b (f x) M tol eps).1 ≤ b' ∧ b' ≤ b ∧
      b' - a' ≤ (|a'| + |b'|) * tol + eps := by
  have key : ∀ n s, (brLoop f tol eps n s).log.length < s.log.length + n → ¬ brCond tol eps (brLoop f tol eps n s) := by
    intro n
    induction n with
    | zero => intro s h; simp [brLoop] at h
    | succ n ih =>
      intro s h
      unfold brLoop at h ⊢
      split
      · rename_i hc
        rw [if_pos hc] at h
        apply ih
        rw [brStep_log]; simp; omega
      · assumption
  have h := brLoop_inv (BInv f a x b) f tol eps (fun s hs => brStep_inv f tol eps hs) M.toNat _ (brInit_inv f h1 h2)
  have hk := key M.toNat (brInit a x b (f x))
  unfold brent at hl ⊢
  simp only at hl ⊢
  generalize brLoop f tol eps M.toNat (brInit a x b (f x)) = s at *
  obtain ⟨lo, o1, o2, hi, -, -, -, -, -, -, -⟩ := h
  refine ⟨s.a, s.b, lo, o1, o2, hi, ?_⟩
  have := hk (by simp only [brInit, List.length_nil]; omega)
  unfold brCond at this
  push Not at this
  rwa [abs_of_nonneg (by linarith)] at this

/-- The interpolation step is the stationary point of the parabola through the three best points: if `x`, `w`, `v` are distinct
and `c₂t² + c₁t + c₀` takes the values `fx`, `fw`, `fv` there, then `x + p/q` is its vertex. -/
theorem c46_parabola (s : BR) (c2 c1 c0 : ℝ) (hxw : s.x ≠ s.w) (hxv : s.x ≠ s.v) (hwv : s.w ≠ s.v)
    (ex : s.fx = c2 * s.x ^ 2 + c1 * s.x + c0) (ew : s.fw = c2 * s.w ^ 2 + c1 * s.w + c0)
    (ev : s.fv = c2 * s.v ^ 2 + c1 * s.v + c0) (tol eps : ℝ) :
    (brMove tol eps s = brGolden s) ∨ (c2 ≠ 0 ∧ s.x + (brMove tol eps s).1 = -c1 / (2 * c2) ∧
      |(brMove tol eps s).1| ≤ |s.e| / 2) := by
  unfold brMove
  simp only
  split
  · split
    · exact Or.inl rfl
    · rename_i hh
      push Not at hh
      obtain ⟨hq, -, -, he⟩ := hh
      right
      have a1 : s.w - s.x ≠ 0 := sub_ne_zero.2 hxw.symm
      have a2 : s.v - s.x ≠ 0 := sub_ne_zero.2 hxv.symm
      have a3 : s.v - s.w ≠ 0 := sub_ne_zero.2 hwv.symm
      have q : 2 * ((s.fv - s.fx) * (s.w - s.x) - (s.fw - s.fx) * (s.v - s.x)) =
          2 * c2 * ((s.w - s.x) * (s.v - s.x) * (s.v - s.w)) := by rw [ex, ew, ev]; ring
      have p : (s.fv - s.fx) * (s.w - s.x) * (s.w - s.x) - (s.fw - s.fx) * (s.v - s.x) * (s.v - s.x) =
          -(2 * c2 * s.x + c1) * ((s.w - s.x) * (s.v - s.x) * (s.v - s.w)) := by rw [ex, ew, ev]; ring
      have hc : c2 ≠ 0 := by
        rintro rfl
        apply hq
        rw [q]; ring
      refine ⟨hc, ?_, ?_⟩
      · simp only [p, q]
        field_simp
        ring
      · rw [abs_div s.e, abs_two] at he
        exact he
  · exact Or.inl rfl

/-- A quadratic `c₂t² + c₁t + c₀` with `c₂ > 0` is minimised exactly by the first accepted interpolation step. -/
theorem c46_quadratic (c2 c1 c0 : ℝ) (hc : 0 < c2) (a x b : ℝ) (s : BR)
    (hs : BInv (fun t => c2 * t ^ 2 + c1 * t + c0) a x b s) (tol eps : ℝ) (hxw : s.x ≠ s.w) (hxv : s.x ≠ s.v)
    (hwv : s.w ≠ s.v) (hp : brMove tol eps s ≠ brGolden s) (t : ℝ) :
    (brStep (fun t => c2 * t ^ 2 + c1 * t + c0) tol eps s).fx ≤ c2 * t ^ 2 + c1 * t + c0 := by
  have hi := brStep_inv (fun t => c2 * t ^ 2 + c1 * t + c0) tol eps hs
  rcases c46_parabola s c2 c1 c0 hxw hxv hwv hs.vx hs.vw hs.vv tol eps with h | ⟨-, h, -⟩
  · exact absurd h hp
  · have := (hi.best (s.x + (brMove tol eps s).1) (by rw [brStep_log]; simp)).2.2
    refine this.trans ?_
    rw [h]
    have e : c2 * t ^ 2 + c1 * t + c0 - (c2 * (-c1 / (2 * c2)) ^ 2 + c1 * (-c1 / (2 * c2)) + c0) =
        c2 * (t + c1 / (2 * c2)) ^ 2 := by field_simp; ring
    have : 0 ≤ c2 * (t + c1 / (2 * c2)) ^ 2 := by positivity
    linarith

/-- such a state: `t²` with `x, w, v = 1, 2, 3` in `[-4, 4]` -/
example (t : ℝ) : (brStep (fun t => 1 * t ^ 2 + 0 * t + 0) (1 / 100) (1 / 100)
    { a := -4, x := 1, b := 4, fx := 1, w := 2, v := 3, fw := 4, fv := 9, d := 1, e := 4, log := [1, 2, 3] }).fx ≤
      1 * t ^ 2 + 0 * t + 0 := by
  refine c46_quadratic 1 0 0 one_pos (-4) 1 4 _ ?_ _ _ (by norm_num) (by norm_num) (by norm_num) ?_ t
  · refine ⟨by norm_num, by norm_num, by norm_num, by norm_num, by norm_num, by norm_num, by norm_num, by simp, by simp,
      by simp, ?_⟩
    simp only [List.cons_append, List.nil_append, List.mem_cons, List.not_mem_nil, or_false]
    rintro t (rfl | rfl | rfl | rfl) <;> norm_num
  · intro h
    have := congrArg Prod.snd h
    unfold brMove brGolden at this
    norm_num at this

/-! ### the minimum can be lost

There is no minimum step.  When the parabola's vertex is the best point itself, the step is zero: the best point is evaluated
again and becomes the upper end of the bracket, whatever the function does above it. -/

/-- a cubic with `f(-g) = f(g)` that still decreases at 0 -/
noncomputable def cubic (t : ℝ) : ℝ := t ^ 3 + t ^ 2 - g ^ 2 * t

/-- once the best point is the upper end of the bracket and the function is not smaller below it, it stays the best point -/
theorem br_stuck (f : ℝ → ℝ) (tol eps a₀ x₀ : ℝ) (hf : ∀ t, a₀ ≤ t → t ≤ x₀ → f x₀ ≤ f t) (n : Nat) (s : BR)
    (h : a₀ ≤ s.a ∧ s.a ≤ s.x ∧ s.x = x₀ ∧ s.b = x₀ ∧ s.fx = f x₀) :
    (brLoop f tol eps n s).x = x₀ ∧ (brLoop f tol eps n s).fx = f x₀ := by
  have := brLoop_inv (fun s => a₀ ≤ s.a ∧ s.a ≤ s.x ∧ s.x = x₀ ∧ s.b = x₀ ∧ s.fx = f x₀) f tol eps ?_ n s h
  · exact ⟨this.2.2.1, this.2.2.2.2⟩
  · intro s ⟨q1, q2, q3, q4, q5⟩
    have hu := brMove_in tol eps s q2 (by rw [q3, q4])
    have hge := hf (s.x + (brMove tol eps s).1) (q1.trans hu.1) (by rw [q4] at hu; exact hu.2)
    unfold brStep
    simp only
    generalize (brMove tol eps s).1 = d at *
    rw [if_neg (by rw [q5]; exact not_lt.2 hge)]
    have hb : ¬ s.x + d < s.x → s.x + d = x₀ := fun hh => le_antisymm (by linarith [hu.2]) (by linarith)
    split_ifs with c1 <;> refine ⟨?_, ?_, q3, ?_, q5⟩ <;> simp only <;> linarith

/-- Given the bracket `(-1, 0, 1)` of the cubic, for which `f(-1) > f(0) < f(1)`, the search returns the middle point itself
with every budget of at least three iterations, although the function is smaller at `1/20`. -/
theorem c46_minimum_lost_wrong (M : Int) (hM : 3 ≤ M) (tol eps : ℝ) (ht : 0 ≤ tol) (ht' : tol < 1 / 4) (he : 0 ≤ eps)
    (he' : eps < 1 / 10) :
    cubic 0 < cubic (-1) ∧ cubic 0 < cubic 1 ∧ cubic (1 / 20) < cubic 0 ∧ ContinuousOn cubic (Icc (-1) 1) ∧
      (brent cubic (-1) 0 1 (cubic 0) M tol eps).1 = 0 := by
  have gp := g_pos
  have gl := g_lt
  have gs := g_sq
  have g3 : 3 / 8 < g := by
    have h : Real.sqrt 5 < 9 / 4 := by rw [Real.sqrt_lt' (by norm_num)]; norm_num
    unfold g; linarith
  have c0 : cubic 0 = 0 := by unfold cubic; ring
  have cg : cubic g = g ^ 2 := by unfold cubic; ring
  have cg' : cubic (-g) = g ^ 2 := by unfold cubic; ring
  have gsq : 0 < g ^ 2 := by positivity
  refine ⟨?_, ?_, ?_, ?_, ?_⟩
  · rw [c0]; unfold cubic; nlinarith
  · rw [c0]; unfold cubic; nlinarith
  · rw [c0]; unfold cubic; nlinarith
  · unfold cubic; fun_prop
  obtain ⟨n, rfl⟩ : ∃ n : Nat, M = (n + 3 : Nat) := ⟨(M - 3).toNat, by omega⟩
  -- the first three iterations
  let s1 : BR := { a := -1, x := 0, b := g, fx := 0, w := g, v := 0, fw := g ^ 2, fv := 0, d := g, e := 1, log := [g] }
  let s2 : BR := { a := -g, x := 0, b := g, fx := 0, w := -g, v := g, fw := g ^ 2, fv := g ^ 2, d := -g, e := -1,
                   log := [-g, g] }
  let s3 : BR := { a := -g, x := 0, b := 0, fx := 0, w := 0, v := -g, fw := 0, fv := g ^ 2, d := 0, e := -g,
                   log := [0, -g, g] }
  have e1 : brStep cubic tol eps (brInit (-1) 0 1 0) = s1 := by
    have m : brMove tol eps (brInit (-1) 0 1 0) = (g, 1) := by
      unfold brMove brGolden brInit; norm_num
    unfold brStep
    rw [m]
    simp only [brInit, zero_add, cg]
    simp only [if_neg (show ¬ g ^ 2 < 0 by linarith), if_neg (show ¬ g < 0 by linarith), or_true, if_true]
    rfl
  have e2 : brStep cubic tol eps s1 = s2 := by
    have m : brMove tol eps s1 = (-g, -1) := by
      unfold brMove brGolden
      simp only [s1]
      norm_num
      constructor <;> (intro h; exfalso; linarith)
    unfold brStep
    rw [m]
    simp only [s1, zero_add, cg']
    simp only [if_neg (show ¬ g ^ 2 < 0 by linarith), if_pos (show -g < 0 by linarith), le_refl, true_or, if_true]
    rfl
  have e3 : brStep cubic tol eps s2 = s3 := by
    have m : brMove tol eps s2 = (0, -g) := by
      unfold brMove brGolden
      simp only [s2]
      rw [if_pos, if_neg]
      · simp
      · have hp : (g ^ 2 - 0) * (-g - 0) * (-g - 0) - (g ^ 2 - 0) * (g - 0) * (g - 0) = 0 := by ring
        rw [hp, zero_div]
        have hg3 : 0 < g ^ 3 := by positivity
        push Not
        refine ⟨?_, ?_, ?_, ?_⟩
        · have : 2 * ((g ^ 2 - 0) * (-g - 0) - (g ^ 2 - 0) * (g - 0)) = -(4 * g ^ 3) := by ring
          rw [this]; linarith
        · linarith
        · linarith
        · simp
      · constructor
        · rw [abs_zero, abs_neg, abs_one]; linarith
        · intro h; linarith
    unfold brStep
    rw [m]
    simp only [s2, zero_add, c0]
    simp only [lt_irrefl, if_false, gsq.le, true_or, if_true]
    rfl
  have k0 : brCond tol eps (brInit (-1) 0 1 0) := by
    unfold brCond brInit; norm_num; linarith
  have k1 : brCond tol eps s1 := by
    unfold brCond; simp only [s1]
    rw [abs_of_pos (by linarith), abs_neg, abs_one, abs_of_pos gp]; nlinarith
  have k2 : brCond tol eps s2 := by
    unfold brCond; simp only [s2]
    rw [abs_of_pos (by linarith), abs_neg, abs_of_pos gp]; nlinarith
  unfold brent
  simp only [Int.toNat_natCast, c0]
  have : brLoop cubic tol eps (n + 3) (brInit (-1) 0 1 0) = brLoop cubic tol eps n s3 := by
    rw [brLoop, if_pos k0, e1, brLoop, if_pos k1, e2, brLoop, if_pos k2, e3]
  rw [this]
  refine (br_stuck cubic tol eps (-g) 0 ?_ n s3 ⟨le_rfl, by simp only [s3]; linarith, rfl, rfl, c0.symm⟩).1
  intro t t1 t2
  rw [c0]
  have : cubic t = t ^ 2 + (-t) * (g ^ 2 - t ^ 2) := by unfold cubic; ring
  rw [this]
  have : 0 ≤ g ^ 2 - t ^ 2 := by nlinarith
  have : 0 ≤ -t * (g ^ 2 - t ^ 2) := mul_nonneg (by linarith) this
  positivity

end TooN.Line
