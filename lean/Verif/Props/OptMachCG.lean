import Verif.Props.OptMach
/-!
# C74: conjugate gradients with arbitrary floating-point arithmetic
-/
set_option linter.unusedSectionVars false
namespace TooN.Mach
open scoped Classical

variable {M : Mach} {n : Nat}

/-- the laws about signs used by `ConjugateGradient`, which hold in every binary floating-point format: `a - h*t` and
`a - t*h` are computed exactly like `a + t*(h*-1)` -/
def SignOk (M : Mach) : Prop :=
  ∀ a h t : M.F, a - h * t = a + t * (h * M.lit (-1)) ∧ a - t * h = a + t * (h * M.lit (-1))

/-- the laws about halving and doubling steps used by `bracket_minimum_forward`: they do not reverse the order, and a point
computed as `g + (b - g) * l` for a non-negative `l` and `g <= b` is not below `g` -/
structure StepOk (M : Mach) : Prop where
  one : M.lit 0 ≤ M.lit 1
  half : ∀ l : M.F, M.lit 0 ≤ l → M.lit 0 ≤ l * M.lit (1 / 2) ∧ ¬ l < l * M.lit (1 / 2)
  dbl : ∀ l : M.F, M.lit 0 ≤ l → M.lit 0 ≤ l * M.lit 2 ∧ l ≤ l * M.lit 2
  back : ∀ g b l : M.F, M.lit 0 ≤ g → g ≤ b → M.lit 0 ≤ l → ¬ g + (b - g) * l < g

/-- what `bracket_minimum_forward` returns: values belong to their points, the middle value is smaller than the given one,
and the last point is not below the middle one -/
def Good (φ : M.F → M.F) (a0 : M.F) (k : Bracket M) : Prop :=
  k.bv = φ k.b ∧ k.cv = φ k.c ∧ k.bv < a0 ∧ ¬ k.c < k.b

theorem halveNan_ret {φ : M.F → M.F} (hS : StepOk M) : ∀ {fuel : Nat} {l : M.F} {r : M.F × M.F}, M.lit 0 ≤ l →
    halveNan φ fuel l = .ret r → M.lit 0 ≤ r.1 ∧ r.2 = φ r.1 := by
  intro fuel
  induction fuel with
  | zero => intro l r _ h; simp [halveNan] at h
  | succ k ih =>
    intro l r hl h
    unfold halveNan at h
    split at h
    · exact ih (hS.half l hl).1 h
    · cases h; exact ⟨hl, rfl⟩

theorem backLoop_ret {φ : M.F → M.F} (hS : StepOk M) {g b : M.F} (hg : M.lit 0 ≤ g) (hgb : g ≤ b) :
    ∀ {fuel : Nat} {l : M.F} {r : M.F × M.F}, M.lit 0 ≤ l →
    backLoop φ g b fuel l = .ret r → ¬ r.1 < g ∧ r.2 = φ r.1 := by
  intro fuel
  induction fuel with
  | zero => intro l r _ h; simp [backLoop] at h
  | succ k ih =>
    intro l r hl h
    unfold backLoop at h
    simp only at h
    split at h
    · exact ih (hS.half l hl).1 h
    · cases h; exact ⟨hS.back g b _ hg hgb (hS.half l hl).1, rfl⟩

theorem downLoop_ret {φ : M.F → M.F} (hS : StepOk M) {a0 : M.F} : ∀ {fuel : Nat} {l a av bv : M.F} {k : Bracket M},
    M.lit 0 ≤ l → bv = φ l → bv < a0 → downLoop φ fuel l a av bv = .ret k → Good φ a0 k := by
  intro fuel
  induction fuel with
  | zero => intro l a av bv k _ _ _ h; simp [downLoop] at h
  | succ m ih =>
    intro l a av bv k hl hb hlt h
    unfold downLoop at h
    simp only at h
    split at h
    · generalize hr : backLoop φ l (l * M.lit 2) m (M.lit 1) = r at h
      cases r with
      | ret r =>
        obtain ⟨q1, q2⟩ := backLoop_ret hS hl (hS.dbl l hl).2 hS.one hr
        simp only [Res.bind] at h
        cases h
        exact ⟨hb, q2, hlt, q1⟩
      | running => simp [Res.bind] at h
      | assertFail => simp [Res.bind] at h
    · rename_i hnan
      split at h
      · cases h
        refine ⟨hb, rfl, hlt, ?_⟩
        have := (hS.dbl l hl).2
        exact (not_lt' (le_not_nan this).2 (le_not_nan this).1).2 this
      · rename_i hgt
        refine ih (hS.dbl l hl).1 rfl ?_ h
        exact le_lt_tr ((not_lt' (lt_not_nan hlt).1 hnan).1 hgt) hlt

theorem upLoop_ret {φ : M.F → M.F} (hS : StepOk M) {a0 zeps : M.F} : ∀ {fuel : Nat} {l c cv : M.F} {k : Bracket M},
    M.lit 0 ≤ l → cv = φ c → c = l → upLoop φ a0 zeps fuel l c cv = .ret k → k = Bracket.zeros M ∨ Good φ a0 k := by
  intro fuel
  induction fuel with
  | zero => intro l c cv k _ _ _ h; simp [upLoop] at h
  | succ m ih =>
    intro l c cv k hl hc hcl h
    unfold upLoop at h
    simp only at h
    split at h
    · rename_i hlt
      cases h
      exact Or.inr ⟨rfl, hc, hlt, by rw [hcl]; exact (hS.half l hl).2⟩
    · split at h
      · cases h; exact Or.inl rfl
      · exact ih (hS.half l hl).1 rfl rfl h

/-- **C74 (bracketing).** Whatever the arithmetic and the function do, provided only that halving and doubling a step does not
reverse the order: a bracket returned by the forward search from a non-negative step is `Zeros`, or its middle point has a
value below the given one, the values belong to the points, and the last point is not below the middle one. -/
theorem c74_bracket (hS : StepOk M) (φ : M.F → M.F) (fuel : Nat) (a0 lambda0 zeps : M.F) (hl : M.lit 0 ≤ lambda0)
    (k : Bracket M) (h : bracketForward φ fuel a0 lambda0 zeps = .ret k) : k = Bracket.zeros M ∨ Good φ a0 k := by
  unfold bracketForward at h
  generalize hr : halveNan φ fuel lambda0 = r at h
  cases r with
  | ret r =>
    obtain ⟨q1, q2⟩ := halveNan_ret hS hl hr
    simp only [Res.bind] at h
    split at h
    · rename_i hlt; exact Or.inr (downLoop_ret hS q1 q2 hlt h)
    · exact upLoop_ret hS q1 q2 rfl h
  | running => simp [Res.bind] at h
  | assertFail => simp [Res.bind] at h

/-- the members are as between two calls of `iterate` -/
def CgInv (f : Pt M n → M.F) (s : CG M n) : Prop :=
  s.y = f s.x ∧ s.minusH = vneg s.h ∧ M.lit 0 ≤ s.lambda0

theorem line_eq (hN : SignOk M) (f : Pt M n → M.F) (s : CG M n) (h : s.minusH = vneg s.h) (t : M.F) :
    line f s t = f (vsub s.x (smulR s.h t)) ∧ line f s t = f (vsub s.x (smulL t s.h)) := by
  unfold line
  rw [h]
  constructor
  · congr 1; funext i; exact ((hN (s.x i) (s.h i) t).1).symm
  · congr 1; funext i; exact ((hN (s.x i) (s.h i) t).2).symm

theorem zeros_eqv (h : ¬ NaN (M.lit 0)) : eqv (M.lit 0) (M.lit 0) := by
  obtain ⟨a, ha⟩ := Option.ne_none_iff_exists'.1 h
  exact ⟨a, ha, ha⟩

/-- **C74 (conjugate gradients, one line search).** Whatever the function does, in any arithmetic with the two groups of laws
above: if `find_next_point` returns, `y` is still exactly the function's value at `x`, and it is unchanged (with `x`) or
strictly smaller. -/
theorem c74_cg_next (hS : StepOk M) (hN : SignOk M) (f : Pt M n → M.F) (fuel : Nat) (s s' : CG M n) (hi : CgInv f s)
    (h : cgNext f fuel s = .ret s') :
    CgInv f s' ∧ ((s'.x = s.x ∧ s'.y = s.y) ∨ s'.y < s.y) ∧ s'.oldY = s.y ∧ s'.oldX = s.x ∧
      s'.iterations = s.iterations + 1 ∧ s'.maxIterations = s.maxIterations := by
  obtain ⟨hy, hm, hl⟩ := hi
  have hline := line_eq hN f s hm
  unfold cgNext at h
  simp only at h
  generalize hr : bracketForward (line f s) fuel s.y s.lambda0 s.bracketEpsilon = r at h
  cases r with
  | running => simp [Res.bind] at h
  | assertFail => simp [Res.bind] at h
  | ret k =>
    have hk := c74_bracket hS _ _ _ _ _ hl k hr
    simp only [Res.bind] at h
    split at h
    · cases h; exact ⟨⟨hy, hm, hl⟩, Or.inl ⟨rfl, rfl⟩, rfl, rfl, rfl, rfl⟩
    rename_i hz
    have hz0 := zeros_eqv (M := M) (le_not_nan hS.one).1
    have hk : Good (line f s) s.y k := by
      rcases hk with rfl | hk
      · exact absurd ⟨hz0, hz0, hz0⟩ hz
      · exact hk
    obtain ⟨g1, g2, g3, g4⟩ := hk
    rw [if_neg g4] at h
    split at h
    · cases h
    split at h
    · cases h
    split at h
    · cases h
    split at h
    · cases h
    cases h
    generalize hb : brent (line f s) k.a k.b k.c k.bv s.lsMaxIterations s.lsTolerance s.lsEpsilon = m
    obtain ⟨x', y, log⟩ := m
    obtain ⟨hc, -, -⟩ := c74_brent _ _ _ _ _ _ _ _ _ _ _ hb
    have hyx : y = line f s x' := by
      rcases hc with ⟨rfl, rfl⟩ | ⟨-, e, -⟩
      · exact g1
      · exact e
    refine ⟨⟨?_, hm, hl⟩, Or.inr ?_, rfl, rfl, rfl, rfl⟩
    · simp only; rw [hyx]; exact (hline x').2
    · simp only
      rcases hc with ⟨-, rfl⟩ | ⟨-, -, e⟩
      · exact g3
      · exact lt_tr e g3

/-- states reached by `k` calls of `iterate` that all returned true, as in `while(cg.iterate(f, deriv))` -/
inductive CgReach (f : Pt M n → M.F) (deriv : Pt M n → Pt M n) (s0 : CG M n) : Nat → CG M n → Prop
  | zero : CgReach f deriv s0 0 s0
  | step {k : Nat} {s s' : CG M n} (fuel : Nat) : CgReach f deriv s0 k s → cgIterate f deriv fuel s = .ret (s', true) →
      CgReach f deriv s0 (k + 1) s'

theorem cgIterate_inv (hS : StepOk M) (hN : SignOk M) (f : Pt M n → M.F) (deriv : Pt M n → Pt M n) (fuel : Nat)
    (s s' : CG M n) (b : Bool) (hi : CgInv f s) (h : cgIterate f deriv fuel s = .ret (s', b)) :
    CgInv f s' ∧ (s'.y = s.y ∨ s'.y < s.y) ∧ s'.iterations = s.iterations + 1 ∧ s'.maxIterations = s.maxIterations ∧
      (b = true → s'.iterations ≤ s'.maxIterations) := by
  unfold cgIterate at h
  generalize hr : cgNext f fuel s = r at h
  cases r with
  | running => simp [Res.bind] at h
  | assertFail => simp [Res.bind] at h
  | ret t =>
    obtain ⟨h1, h2, -, -, h3, h4⟩ := c74_cg_next hS hN f fuel s t hi hr
    have h2' : t.y = s.y ∨ t.y < s.y := by tauto
    simp only [Res.bind] at h
    split at h
    · cases h
      exact ⟨h1, h2', h3, h4, by simp⟩
    · rename_i hf
      cases h
      refine ⟨⟨h1.1, rfl, h1.2.2⟩, h2', h3, h4, fun _ => ?_⟩
      unfold cgFinished at hf
      push Not at hf
      exact hf.1

/-- **C74 (conjugate gradients, whole run).** In any arithmetic with the two groups of laws, for every function: during the
documented loop `y` is always exactly the function's value at `x`, never above the starting value, and there are at most
`100 n` iterations that return true; the same holds of the state after the last one. -/
theorem c74_cg (hS : StepOk M) (hN : SignOk M) (f : Pt M n → M.F) (deriv : Pt M n → Pt M n) (garbage : CG M n)
    (start : Pt M n) (k : Nat) (s : CG M n) (h : CgReach f deriv (cgConstruct garbage start f deriv) k s) :
    s.y = f s.x ∧ (s.y = f start ∨ s.y < f start) ∧ k ≤ 100 * n ∧
      ∀ fuel s' b, cgIterate f deriv fuel s = .ret (s', b) → s'.y = f s'.x ∧ (s'.y = f start ∨ s'.y < f start) := by
  have key : CgInv f s ∧ (s.y = f start ∨ s.y < f start) ∧ s.iterations = k ∧ s.maxIterations = (n : Int) * 100 ∧
      k ≤ 100 * n := by
    induction h with
    | zero => exact ⟨⟨rfl, rfl, hS.one⟩, Or.inl rfl, rfl, rfl, by omega⟩
    | step fuel _ hs ih =>
      obtain ⟨i1, i2, i3, i4, i5⟩ := ih
      obtain ⟨j1, j2, j3, j4, j5⟩ := cgIterate_inv hS hN f deriv fuel _ _ _ i1 hs
      refine ⟨j1, ?_, by omega, by omega, ?_⟩
      · rcases j2 with e | e
        · rw [e]; exact i2
        · rcases i2 with e' | e'
          · right; rw [← e']; exact e
          · exact Or.inr (lt_tr e e')
      · have := j5 rfl; omega
  obtain ⟨i1, i2, -, -, i5⟩ := key
  refine ⟨i1.1, i2, i5, fun fuel s' b hs => ?_⟩
  obtain ⟨j1, j2, -⟩ := cgIterate_inv hS hN f deriv fuel s s' b i1 hs
  refine ⟨j1.1, ?_⟩
  rcases j2 with e | e
  · rw [e]; exact i2
  · rcases i2 with e' | e'
    · right; rw [← e']; exact e
    · exact Or.inr (lt_tr e e')

end TooN.Mach
