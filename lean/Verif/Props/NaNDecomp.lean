import Verif.Proof.NaNDecomp
import Verif.Proof.XF
/-!
# C84: a NaN reaches the results of the decompositions and of the least-squares solver

The decompositions choose nothing but a pivot row (`gauss_jordan`) and an early return (`Cholesky`) with comparisons, and a NaN
survives both.
-/
set_option linter.unusedSectionVars false
namespace TooN.Special
open TooN.Ops TooN.Elim
open scoped Classical
variable {G : Grid}

theorem nan_den (a b : XF G) (h : b = .nan) : a / b = .nan := nan_div a b (Or.inr h)

/-- **C84** (Cholesky, solve) Element `k` of `Cholesky(A).backsub(v)` is NaN if `v` contains a NaN, or the lower triangle of `A`
contains one below the diagonal, or on the diagonal in row `k` or later; and if `rank()` is the size, anywhere on the diagonal. -/
theorem c84_backsub (n : Nat) (A : Mat (XF G)) (v u w : Vec (XF G)) (k : Nat) (hk : k < n)
    (h : (∃ i, i < n ∧ v i = .nan) ∨
      ∃ i j, j ≤ i ∧ i < n ∧ A i j = .nan ∧ (j < i ∨ k ≤ i ∨ (Chol.compute n A).2 = n)) :
    Chol.backsubT n (Chol.compute n A).1 v u w k = .nan :=
  backsubT_sticky sticky_nan nan_den n _ v u w k hk (chol_reach sticky_nan nan_den n A zero_ne_nan v k hk h)

/-- **C84** (Cholesky, solve for a matrix) The same for column `q` of `Cholesky(A).backsub(B)`. -/
theorem c84_backsub_matrix (n nc : Nat) (A B u w : Mat (XF G)) (k q : Nat) (hk : k < n) (hq : q < nc)
    (h : (∃ i, i < n ∧ B i q = .nan) ∨
      ∃ i j, j ≤ i ∧ i < n ∧ A i j = .nan ∧ (j < i ∨ k ≤ i ∨ (Chol.compute n A).2 = n)) :
    Chol.backsubMT n nc (Chol.compute n A).1 B u w k q = .nan :=
  backsubMT_sticky sticky_nan nan_den n nc _ B u w k q hk hq
    (chol_reach sticky_nan nan_den n A zero_ne_nan (fun i => B i q) k hk h)

/-- **C84** (Cholesky, inverse) A NaN in the lower triangle of `A` makes the whole first row of `get_inverse()` NaN, and every
element if it is below the diagonal or `rank()` is the size. -/
theorem c84_inverse (n : Nat) (A u w : Mat (XF G)) (k q : Nat) (hk : k < n) (hq : q < n)
    (h : ∃ i j, j ≤ i ∧ i < n ∧ A i j = .nan ∧ (j < i ∨ k ≤ i ∨ (Chol.compute n A).2 = n)) :
    Chol.getInverseT n (Chol.compute n A).1 u w k q = .nan :=
  c84_backsub_matrix n n A _ u w k q hk hq (Or.inr h)

/-- **C84** (Cholesky, Mahalanobis distance) A NaN in `v` or in the lower triangle of `A` makes `mahalanobis(v)` NaN. -/
theorem c84_mahalanobis (n : Nat) (A : Mat (XF G)) (v u w : Vec (XF G))
    (h : (∃ i, i < n ∧ v i = .nan) ∨ ∃ i j, j ≤ i ∧ i < n ∧ A i j = .nan) :
    Chol.mahalanobisT n (Chol.compute n A).1 v u w = .nan := by
  have hn : 0 < n := by rcases h with ⟨i, hi, -⟩ | ⟨i, j, -, hi, -⟩ <;> omega
  refine dot_sticky sticky_nan n _ _ ⟨0, hn, Or.inr (c84_backsub n A v u w 0 hn ?_)⟩
  rcases h with h | ⟨i, j, h1, h2, h3⟩
  · exact Or.inl h
  · exact Or.inr ⟨i, j, h1, h2, h3, Or.inr (Or.inl (Nat.zero_le _))⟩

/-- **C84** (Cholesky, determinant) If `rank()` is the size, a NaN in the lower triangle makes `determinant()` NaN. -/
theorem c84_determinant (n : Nat) (A : Mat (XF G)) (hr : (Chol.compute n A).2 = n)
    (h : ∃ i j, j ≤ i ∧ i < n ∧ A i j = .nan) : Chol.determinant n (Chol.compute n A).1 = .nan := by
  obtain ⟨i, j, h1, h2, h3⟩ := h
  obtain ⟨-, hk⟩ := chol_keep sticky_nan nan_den n A zero_ne_nan
  exact prod_sticky sticky_nan n _ ⟨i, h2, hk.diag i j h1 (by omega) h3⟩

/-- … but not in general: of `[[0, x], [x, 1]]` the determinant is 0, `x` NaN or not, and `rank()` is 0. -/
theorem c84_determinant_wrong (A : Mat (XF G)) (h0 : A 0 0 = 0) (h1 : A 1 1 = 1) :
    Chol.determinant 2 (Chol.compute 2 A).1 = 0 ∧ (Chol.compute 2 A).2 = 0 := by
  have e : Chol.compute 2 A = (Mat.set A 0 0 0, 0) := by
    unfold Chol.compute
    rw [forN_succ, forN_succ, forN_zero, Chol.colBody_spec 2 0 (by omega), if_pos (by exact h0)]
    rfl
  rw [e]
  refine ⟨?_, rfl⟩
  show Mat.set A 0 0 0 0 0 * Mat.set A 0 0 0 1 1 = 0
  rw [Mat.set_self, Mat.set_ne _ _ _ _ _ _ (by omega), h1]
  exact mul_one' _

/-- **C84** (gauss_jordan) For `[A | B]` with a square `A`: a NaN in `A` makes every column of the result `A⁻¹B` contain a NaN, one
in a column of `B` that column.  (The update may be evaluated in any way that keeps NaN, e.g. with `double` intermediates.) -/
theorem c84_gauss_jordan (upd : XF G → XF G → XF G → XF G)
    (hupd : ∀ a x f, a = .nan ∨ x = .nan ∨ f = .nan → upd a x f = .nan) (R C q : Nat) (hR : R ≤ q) (hq : q < C) (m : Mat (XF G))
    (h : (∃ r c, r < R ∧ c < R ∧ m r c = .nan) ∨ ∃ r, r < R ∧ m r q = .nan) :
    ∃ r, r < R ∧ gaussJordanT upd R C m r q = .nan :=
  gaussJordanT_bad upd hupd sticky_nan nan_den R C q hR hq m h

/-- **C84** (WLS) In any history of calls on a `WLS` object: if an argument of a call contains a NaN, and `clear()` is not called
afterwards, then after `compute()` the first element of the estimate is NaN; and every element, if the NaN is in the vector the
estimate is computed from or the Cholesky decomposition was complete. -/
theorem c84_wls (n : Nat) (before after : List (WLS.Op (XF G))) (o : WLS.Op (XF G)) (ho : OpBad (fun x => x = .nan) n o)
    (ha : ∀ o ∈ after, o ≠ .clear) (u w : Vec (XF G)) (s0 : WLS.St (XF G)) :
    ∃ mu, (WLS.history n (before ++ o :: after ++ [.compute u w]) s0).mu = some mu ∧ mu 0 = .nan ∧
      (∀ s, s = WLS.history n (before ++ o :: after) s0 →
        ((∃ i, i < n ∧ s.v i = .nan) ∨ (Chol.compute n (WLS.mirror n s.C)).2 = n) → ∀ k, k < n → mu k = .nan) := by
  have hbad : WLSBad (fun x => x = .nan) n (WLS.history n (before ++ o :: after) s0) := by
    unfold WLS.history
    rw [List.foldl_append, List.foldl_cons]
    exact history_keep sticky_nan n after ha _ (op_new sticky_nan n o ho _)
  have e : WLS.history n (before ++ o :: after ++ [.compute u w]) s0 =
      WLS.computeT n u w (WLS.history n (before ++ o :: after) s0) := by
    unfold WLS.history
    rw [List.foldl_append (l := before ++ o :: after)]
    rfl
  rw [e]
  generalize WLS.history n (before ++ o :: after) s0 = s at hbad
  refine ⟨_, rfl, ?_, ?_⟩
  · have hn : 0 < n := by rcases hbad with ⟨i, hi, -⟩ | ⟨i, j, -, hj, -⟩ <;> omega
    refine c84_backsub n _ s.v u w 0 hn ?_
    rcases hbad with h | ⟨i, j, hij, hj, h⟩
    · exact Or.inl h
    · refine Or.inr ⟨j, i, hij, hj, ?_, Or.inr (Or.inl (Nat.zero_le _))⟩
      rw [WLS.mirror_apply]
      by_cases e : i < j
      · rw [if_pos ⟨hj, e⟩]; exact h
      · rw [if_neg (by omega), show j = i by omega]; rw [show j = i by omega] at h; exact h
  · rintro t rfl hx k hk
    refine c84_backsub n _ t.v u w k hk ?_
    rcases hx with h | hr
    · exact Or.inl h
    · rcases hbad with h | ⟨i, j, hij, hj, h⟩
      · exact Or.inl h
      · refine Or.inr ⟨j, i, hij, hj, ?_, Or.inr (Or.inr hr)⟩
        rw [WLS.mirror_apply]
        by_cases e : i < j
        · rw [if_pos ⟨hj, e⟩]; exact h
        · rw [if_neg (by omega), show j = i by omega]; rw [show j = i by omega] at h; exact h

/-! ### The models are those of the exact theory -/

/-- The total solvers agree with those of the exact theorems (C16, C20–C22) whenever these return. -/
theorem c84_same_code {K : Type} [Zero K] [One K] [Add K] [Sub K] [Mul K] [Div K] [Neg K] [LT K] [DecidableLT K] [DecidableEq K]
    (n nc : Nat) (m B U W : Mat K) (v u w : Vec K) (s : WLS.St K) :
    (∀ x, Chol.backsub n m v u w = some x → Chol.backsubT n m v u w = x) ∧
    (∀ X, Chol.backsubM n nc m B U W = some X → Chol.backsubMT n nc m B U W = X) ∧
    (∀ X, gaussJordan n nc m = some X → gaussJordanT (fun a x f => a - x * f) n nc m = X) ∧
    (∀ x, (WLS.compute n u w s).mu = some x → WLS.computeT n u w s = WLS.compute n u w s) := by
  have key : ∀ (k : Nat) {σ : Type} (f : Nat → σ → Option σ) (g : Nat → σ → σ) (s : σ)
      (_ : ∀ i s s', f i s = some s' → g i s = s') (s' : σ), forNM k f s = some s' → forN k g s = s' := by
    intro k σ f g s hfg
    induction k with
    | zero => intro s' h; exact Option.some.inj h
    | succ k ih =>
      intro s' h
      rw [forNM_succ] at h
      obtain ⟨s1, h1, h2⟩ := Option.bind_eq_some_iff.1 h
      rw [forN_succ, ih s1 h1]
      exact hfg k s1 s' h2
  have hb : ∀ m v x, Chol.backsub n m v u w = some x → Chol.backsubT n m v u w = x := by
    intro m v x h
    obtain ⟨y, h1, h2⟩ := Option.bind_eq_some_iff.1 h
    have := key n _ (fun i (y : Vec K) => Vec.set y i (y i / m i i)) _ (fun i s s' h => by
      by_cases e : m i i = 0
      · rw [if_pos e] at h; cases h
      · rw [if_neg e] at h; exact Option.some.inj h) y h1
    unfold Chol.backsubT Chol.divDiagT
    rw [this]
    exact Option.some.inj h2
  refine ⟨hb m v, fun X h => ?_, fun X h => ?_, fun x h => ?_⟩
  · obtain ⟨y, h1, h2⟩ := Option.bind_eq_some_iff.1 h
    have := key n _ (fun i (y : Mat K) => Chol.setRow y i nc (fun k => y i k * (1 / m i i))) _ (fun i s s' h => by
      by_cases e : m i i = 0
      · rw [if_pos e] at h; cases h
      · rw [if_neg e] at h; exact Option.some.inj h) y h1
    unfold Chol.backsubMT Chol.divDiagMT
    rw [this]
    exact Option.some.inj h2
  · obtain ⟨M, h1, h2⟩ := Option.bind_eq_some_iff.1 h
    have e1 := key n _ (gjColumnT (fun a x f => a - x * f) n nc) _ (fun i s s' h => by
      unfold gjColumn at h
      unfold gjColumnT
      dsimp only at h ⊢
      refine key n _ _ _ (fun r t t' h => ?_) s' h
      by_cases e : r ≠ i
      · rw [if_pos e] at h ⊢
        by_cases e2 : t i i = 0
        · rw [if_pos e2] at h; cases h
        · rw [if_neg e2] at h; exact Option.some.inj h
      · rw [if_neg e] at h ⊢; exact Option.some.inj h) M h1
    have e2 := key n _ (gjFinalT n nc) _ (fun i s s' h => by
      unfold gjFinal at h
      by_cases e : s i i = 0
      · rw [if_pos e] at h; cases h
      · rw [if_neg e] at h; exact Option.some.inj h) X h2
    unfold gaussJordanT
    rw [e1, e2]
  · unfold WLS.compute at h ⊢
    unfold WLS.computeT
    dsimp only at h ⊢
    rw [h, hb _ _ x h]

/-! ### Examples -/

/-- a NaN below the diagonal of a 2×2 matrix of `double`s -/
example (v u w : Vec (XF Grid.double)) (k : Nat) (hk : k < 2) :
    Chol.backsubT 2 (Chol.compute 2 (fun r c => if r = 1 ∧ c = 0 then .nan else 1)).1 v u w k = .nan :=
  c84_backsub 2 _ v u w k hk (Or.inr ⟨1, 0, by omega, by omega, rfl, Or.inl (by omega)⟩)

/-- a NaN in a matrix of `double`s to be inverted with gauss_jordan -/
example : ∃ r, r < 2 ∧ gaussJordanT (fun a x f => a - x * f) 2 4
    (fun r c => if r = 0 ∧ c = 1 then .nan else if c = r + 2 then 1 else (0 : XF Grid.double)) r 3 = .nan :=
  c84_gauss_jordan _ (fun a x f h => by
    rcases h with h | h | h
    · exact sticky_nan.sub _ _ (Or.inl h)
    · exact sticky_nan.sub _ _ (Or.inr (nan_mul _ _ (Or.inl h)))
    · exact sticky_nan.sub _ _ (Or.inr (nan_mul _ _ (Or.inr h)))) 2 4 3 (by omega) (by omega) _
    (Or.inl ⟨0, 1, by omega, by omega, rfl⟩)

/-- a NaN measurement of `double`s among others -/
example (J : Vec (XF Grid.double)) (u w : Vec (XF Grid.double)) (s0 : WLS.St (XF Grid.double)) :
    ∃ mu, (WLS.history 3 ([.clear, .prior 1] ++ .mJ .nan J 1 :: [.mJ 1 J 1] ++ [.compute u w]) s0).mu = some mu ∧ mu 0 = .nan := by
  obtain ⟨mu, h1, h2, -⟩ := c84_wls 3 [.clear, .prior 1] [.mJ 1 J 1] (.mJ .nan J 1) ⟨by omega, Or.inl rfl⟩
    (by intro o h; rw [List.mem_singleton] at h; subst h; intro h; cases h) u w s0
  exact ⟨mu, h1, h2⟩

/-- a complete factorisation of a matrix with a NaN: rank 1 for the 1×1 matrix `[NaN]` -/
example : Chol.determinant 1 (Chol.compute 1 (fun _ _ => (.nan : XF Grid.double))).1 = .nan := by
  refine c84_determinant 1 _ ?_ ⟨0, 0, le_refl _, by omega, rfl⟩
  unfold Chol.compute
  rw [forN_succ, forN_zero, Chol.colBody_spec 1 0 (by omega), if_neg (by intro h; cases h)]
  rfl

/-- … and so do the functions that call them. -/
theorem c84_same_code_derived {K : Type} [Zero K] [One K] [Add K] [Sub K] [Mul K] [Div K] [Neg K] [LT K] [DecidableLT K] [DecidableEq K]
    (n : Nat) (m U W : Mat K) (v u w : Vec K) :
    (∀ X, Chol.getInverse n m U W = some X → Chol.getInverseT n m U W = X) ∧
    (∀ x, Chol.mahalanobis n m v u w = some x → Chol.mahalanobisT n m v u w = x) := by
  obtain ⟨h1, h2, -, -⟩ := c84_same_code n n m (fun r c => if r = c then 1 else 0) U W v u w ⟨m, v, none⟩
  refine ⟨h2, fun x h => ?_⟩
  obtain ⟨y, hy, hx⟩ := Option.bind_eq_some_iff.1 h
  unfold Chol.mahalanobisT
  rw [h1 y hy]
  exact Option.some.inj hx

end TooN.Special
