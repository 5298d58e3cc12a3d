import Verif.Model.OptMach
import Mathlib.Tactic
/-!
# C74: the optimisers with arbitrary floating-point arithmetic
-/
set_option linter.unusedSectionVars false
namespace TooN.Mach
open scoped Classical

variable {M : Mach} {n : Nat}

/-! ## comparisons -/

theorem lt_irr (x : M.F) : ¬ x < x := by
  rintro ⟨a, b, h1, h2, h3⟩
  rw [h1] at h2; cases h2
  exact lt_irrefl _ h3
theorem lt_tr {x y z : M.F} : x < y → y < z → x < z := by
  rintro ⟨a, b, h1, h2, h3⟩ ⟨b', c, h4, h5, h6⟩
  rw [h2] at h4; cases h4
  exact ⟨a, c, h1, h5, h3.trans h6⟩
theorem le_lt_tr {x y z : M.F} : x ≤ y → y < z → x < z := by
  rintro ⟨a, b, h1, h2, h3⟩ ⟨b', c, h4, h5, h6⟩
  rw [h2] at h4; cases h4
  exact ⟨a, c, h1, h5, h3.trans_lt h6⟩
theorem lt_le_tr {x y z : M.F} : x < y → y ≤ z → x < z := by
  rintro ⟨a, b, h1, h2, h3⟩ ⟨b', c, h4, h5, h6⟩
  rw [h2] at h4; cases h4
  exact ⟨a, c, h1, h5, h3.trans_le h6⟩
theorem le_tr {x y z : M.F} : x ≤ y → y ≤ z → x ≤ z := by
  rintro ⟨a, b, h1, h2, h3⟩ ⟨b', c, h4, h5, h6⟩
  rw [h2] at h4; cases h4
  exact ⟨a, c, h1, h5, h3.trans h6⟩
theorem lt_le {x y : M.F} : x < y → x ≤ y := fun ⟨a, b, h1, h2, h3⟩ => ⟨a, b, h1, h2, h3.le⟩
theorem le_rf {x : M.F} (h : ¬ NaN x) : x ≤ x := by
  obtain ⟨a, ha⟩ := Option.ne_none_iff_exists'.1 h
  exact ⟨a, a, ha, ha, le_rfl⟩
theorem lt_asymm' {x y : M.F} (h : x < y) : ¬ y < x := fun h' => lt_irr _ (lt_tr h h')
theorem not_lt' {x y : M.F} (hx : ¬ NaN x) (hy : ¬ NaN y) : ¬ x < y ↔ y ≤ x := by
  obtain ⟨a, ha⟩ := Option.ne_none_iff_exists'.1 hx
  obtain ⟨b, hb⟩ := Option.ne_none_iff_exists'.1 hy
  constructor
  · intro h
    exact ⟨b, a, hb, ha, not_lt.1 fun h' => h ⟨a, b, ha, hb, h'⟩⟩
  · rintro ⟨b', a', h1, h2, h3⟩ ⟨a'', b'', h4, h5, h6⟩
    rw [h1] at h5; cases h5
    rw [h2] at h4; cases h4
    exact absurd h6 (not_lt.2 h3)
theorem le_not_nan {x y : M.F} (h : x ≤ y) : ¬ NaN x ∧ ¬ NaN y := by
  obtain ⟨a, b, h1, h2, -⟩ := h
  exact ⟨by unfold NaN; rw [h1]; exact Option.some_ne_none _, by unfold NaN; rw [h2]; exact Option.some_ne_none _⟩
theorem lt_not_nan {x y : M.F} (h : x < y) : ¬ NaN x ∧ ¬ NaN y := le_not_nan (lt_le h)
theorem nan_not_lt {x y : M.F} (h : NaN x ∨ NaN y) : ¬ x < y := fun hl =>
  h.elim (lt_not_nan hl).1 (lt_not_nan hl).2

/-! ## Brent's line search -/

/-- what holds in every iteration -/
def BrInv (f : M.F → M.F) (x0 fx0 : M.F) (s : BR M) : Prop :=
  ((s.x = x0 ∧ s.fx = fx0) ∨ (s.x ∈ s.log ∧ s.fx = f s.x ∧ s.fx < fx0)) ∧ ∀ t ∈ s.log, ¬ f t < s.fx

theorem brStep_inv {f : M.F → M.F} {x0 fx0 : M.F} (tol eps : M.F) {s : BR M} (h : BrInv f x0 fx0 s) :
    BrInv f x0 fx0 (brStep f tol eps s) := by
  obtain ⟨h1, h2⟩ := h
  unfold brStep
  simp only
  generalize s.x + (brMove tol eps s).1 = u
  by_cases hlt : f u < s.fx
  · rw [if_pos hlt]
    have key : BrInv f x0 fx0 { s with x := u, fx := f u, log := u :: s.log } := by
      refine ⟨Or.inr ⟨by simp, rfl, ?_⟩, ?_⟩
      · rcases h1 with ⟨-, e⟩ | ⟨-, -, e⟩
        · rw [← e]; exact hlt
        · exact lt_tr hlt e
      · intro t ht
        rcases List.mem_cons.1 ht with rfl | ht
        · exact lt_irr _
        · intro hh; exact h2 t ht (lt_tr hh hlt)
    split <;> exact key
  · rw [if_neg hlt]
    have key : BrInv f x0 fx0 { s with log := u :: s.log } := by
      refine ⟨?_, ?_⟩
      · rcases h1 with e | ⟨a, b, c⟩
        · exact Or.inl e
        · exact Or.inr ⟨by simp [a], b, c⟩
      · intro t ht
        rcases List.mem_cons.1 ht with rfl | ht
        · exact hlt
        · exact h2 t ht
    split <;> (split <;> [exact key; split <;> exact key])

theorem brStep_log (f : M.F → M.F) (tol eps : M.F) (s : BR M) :
    (brStep f tol eps s).log = (s.x + (brMove tol eps s).1) :: s.log := by
  unfold brStep
  simp only
  split_ifs <;> rfl

theorem brLoop_inv {f : M.F → M.F} {x0 fx0 : M.F} (tol eps : M.F) : ∀ (k : Nat) (s : BR M), BrInv f x0 fx0 s →
    BrInv f x0 fx0 (brLoop f tol eps k s) ∧ (brLoop f tol eps k s).log.length ≤ s.log.length + k := by
  intro k
  induction k with
  | zero => intro s h; exact ⟨h, le_rfl⟩
  | succ k ih =>
    intro s h
    unfold brLoop
    split
    · obtain ⟨a, b⟩ := ih _ (brStep_inv tol eps h)
      refine ⟨a, b.trans ?_⟩
      rw [brStep_log]; simp; omega
    · exact ⟨h, by omega⟩

/-- **C74 (Brent).** Whatever the arithmetic and the function do (rounding, overflow, NaN): the returned value is the
function's value at the returned point, or the given point and value; it is only replaced by strictly smaller values, so it
never exceeds the given one; no evaluated point had a smaller value; and there are at most `maxiterations` calls. -/
theorem c74_brent (f : M.F → M.F) (a x b fx : M.F) (maxit : Int) (tol eps : M.F) (x' y : M.F) (log : List M.F)
    (h : brent f a x b fx maxit tol eps = (x', y, log)) :
    ((x' = x ∧ y = fx) ∨ (x' ∈ log ∧ y = f x' ∧ y < fx)) ∧ (∀ t ∈ log, ¬ f t < y) ∧ (log.length : Int) ≤ max maxit 0 := by
  have := brLoop_inv (f := f) (x0 := x) (fx0 := fx) tol eps maxit.toNat (brInit a x b fx)
    ⟨Or.inl ⟨rfl, rfl⟩, fun t ht => by simp [brInit] at ht⟩
  unfold brent at h
  simp only [Prod.mk.injEq] at h
  obtain ⟨e1, e2, e3⟩ := h
  obtain ⟨⟨h1, h2⟩, h3⟩ := this
  rw [e1, e2, e3] at h1
  rw [e2, e3] at h2
  rw [e3] at h3
  refine ⟨h1, h2, ?_⟩
  simp only [brInit, List.length_nil, zero_add] at h3
  omega

/-! ## golden section search -/

/-- what holds in every iteration if no value is NaN -/
def GsInv (f : M.F → M.F) (b : M.F) (s : GS M) : Prop :=
  s.fx1 = f s.x1 ∧ s.fx2 = f s.x2 ∧ (s.x1 = b ∨ s.x1 ∈ s.log) ∧ (s.x2 = b ∨ s.x2 ∈ s.log) ∧
    ∀ t, t = b ∨ t ∈ s.log → s.fx1 ≤ f t ∨ s.fx2 ≤ f t

theorem gsStep_inv {f : M.F → M.F} (hf : ∀ t, ¬ NaN (f t)) {b : M.F} {s : GS M} (h : GsInv f b s) :
    GsInv f b (gsStep f s) := by
  obtain ⟨h1, h2, h3, h4, h5⟩ := h
  have n1 : ¬ NaN s.fx1 := by rw [h1]; exact hf _
  have n2 : ¬ NaN s.fx2 := by rw [h2]; exact hf _
  unfold gsStep
  simp only
  split
  · rename_i hgt
    refine ⟨h2, rfl, ?_, Or.inr (by simp), ?_⟩
    · rcases h4 with e | e
      · exact Or.inl e
      · exact Or.inr (by simp [e])
    · intro t ht
      simp only [List.mem_cons] at ht
      have : (t = b ∨ t ∈ s.log) ∨ t = s.x2 + M.gold * (s.c - s.x2) := by tauto
      rcases this with ht | rfl
      · left
        rcases h5 t ht with e | e
        · exact le_tr (lt_le hgt) e
        · exact e
      · exact Or.inr (le_rf (hf _))
  · rename_i hgt
    have hle := (not_lt' n2 n1).1 hgt
    refine ⟨rfl, h1, Or.inr (by simp), ?_, ?_⟩
    · rcases h3 with e | e
      · exact Or.inl e
      · exact Or.inr (by simp [e])
    · intro t ht
      simp only [List.mem_cons] at ht
      have : (t = b ∨ t ∈ s.log) ∨ t = s.x1 - M.gold * (s.x1 - s.a) := by tauto
      rcases this with ht | rfl
      · right
        rcases h5 t ht with e | e
        · exact e
        · exact le_tr hle e
      · exact Or.inl (le_rf (hf _))

theorem gsInit_inv {f : M.F → M.F} (hf : ∀ t, ¬ NaN (f t)) (a b c : M.F) : GsInv f b (gsInit f a b c (f b)) := by
  unfold gsInit
  split
  · refine ⟨rfl, rfl, Or.inr (by simp), Or.inl rfl, ?_⟩
    intro t ht
    simp only [List.mem_singleton] at ht
    rcases ht with rfl | rfl
    · exact Or.inr (le_rf (hf _))
    · exact Or.inl (le_rf (hf _))
  · refine ⟨rfl, rfl, Or.inl rfl, Or.inr (by simp), ?_⟩
    intro t ht
    simp only [List.mem_singleton] at ht
    rcases ht with rfl | rfl
    · exact Or.inl (le_rf (hf _))
    · exact Or.inr (le_rf (hf _))

theorem gsLoop_inv {f : M.F → M.F} (hf : ∀ t, ¬ NaN (f t)) {b : M.F} (maxit : Int) (tol : M.F) :
    ∀ (fuel : Nat) (s s' : GS M), GsInv f b s → gsLoop f maxit tol fuel s = some s' → GsInv f b s' := by
  intro fuel
  induction fuel with
  | zero => intro s s' _ h; simp [gsLoop] at h
  | succ k ih =>
    intro s s' hi h
    unfold gsLoop at h
    split at h
    · exact ih _ _ (gsStep_inv hf hi) h
    · cases h; exact hi

/-- **C74 (golden section).** Whatever the arithmetic does, for a function without NaN values: when the search returns, the
returned value is the function's value at the returned point, which is the given point or one that was evaluated, and no
evaluated point, nor the given one, has a smaller value. -/
theorem c74_golden (f : M.F → M.F) (hf : ∀ t, ¬ NaN (f t)) (fuel : Nat) (a b c : M.F) (maxit : Int) (tol : M.F)
    (x y : M.F) (log : List M.F) (h : goldenSection f fuel a b c (f b) maxit tol = some (x, y, log)) :
    y = f x ∧ (x = b ∨ x ∈ log) ∧ y ≤ f b ∧ ∀ t ∈ log, y ≤ f t := by
  unfold goldenSection at h
  obtain ⟨s, hs, e⟩ := Option.map_eq_some_iff.1 h
  obtain ⟨h1, h2, h3, h4, h5⟩ := gsLoop_inv hf maxit tol fuel _ _ (gsInit_inv hf a b c) hs
  have n1 : ¬ NaN s.fx1 := by rw [h1]; exact hf _
  have n2 : ¬ NaN s.fx2 := by rw [h2]; exact hf _
  unfold gsOut at e
  split at e
  · rename_i hlt
    simp only [Prod.mk.injEq] at e
    obtain ⟨rfl, rfl, rfl⟩ := e
    have key : ∀ t, t = b ∨ t ∈ s.log → s.fx1 ≤ f t := fun t ht => by
      rcases h5 t ht with e | e
      · exact e
      · exact lt_le (lt_le_tr hlt e)
    exact ⟨h1, h3, key b (Or.inl rfl), fun t ht => key t (Or.inr ht)⟩
  · rename_i hlt
    have hle := (not_lt' n1 n2).1 hlt
    simp only [Prod.mk.injEq] at e
    obtain ⟨rfl, rfl, rfl⟩ := e
    have key : ∀ t, t = b ∨ t ∈ s.log → s.fx2 ≤ f t := fun t ht => by
      rcases h5 t ht with e | e
      · exact le_tr hle e
      · exact e
    exact ⟨h2, h4, key b (Or.inl rfl), fun t ht => key t (Or.inr ht)⟩

/-- **Finding.** If the function is NaN at the one point evaluated, the golden section search may return NaN although the
value it was given was a number: it does so, on every floating-point type, when the longer part of the bracket is the upper
one and one iteration is allowed. -/
theorem c74_golden_nan_wrong (f : M.F → M.F) (fuel : Nat) (a b c : M.F) (tol : M.F)
    (hb : ¬ M.abs (b - a) > M.abs (c - b)) (hf : NaN (f (b + M.gold * (c - b)))) :
    ∃ x log y, goldenSection f (fuel + 1) a b c (f b) 1 tol = some (x, y, log) ∧ NaN y := by
  refine ⟨b + M.gold * (c - b), [b + M.gold * (c - b)], f (b + M.gold * (c - b)), ?_, hf⟩
  unfold goldenSection gsLoop gsCond gsInit
  rw [if_neg hb]
  simp only [lt_irrefl, and_false, if_false, Option.map_some]
  unfold gsOut
  rw [if_neg (nan_not_lt (Or.inr hf))]

end TooN.Mach
