import Verif.Proof.XF
import Verif.Props.Param
/-!
# C76: invalid numbers are not lost

`float` and `double` have the values NaN and ±∞, which stand for "no meaningful result".  A user who checks the result of a
computation with `isnan` or `isfinite` relies on the library not to swallow them.

* In every program over vectors and matrices, and in the solver, NaN reaches everything that is computed from it.
* A finite dot product, matrix product, sum, trace, norm, … was computed from finite numbers only.
* Where the library *chooses* with `<` or `>` it loses NaN: the matrix norms `norm_inf` and `norm_1`, `norm_inf` of a vector,
  `max_value`, `min_value`, and what is built on them: the matrix functions `exp` and `log` return the identity and zero for a NaN
  matrix.  `determinant` can return 0.  Overflow and underflow inside `norm` make `unit` return 0, and the solver turns an infinite
  coefficient into 0.
-/
set_option linter.unusedSectionVars false
namespace TooN.Special
open TooN.Ops TooN.Elim
open scoped Classical
variable {G : Grid}

/-! ### Programs -/

/-- a mark on a number; `den` says whether marks of a denominator count -/
structure Mark (den : Prop) where
  on : Prop

section mark
variable {den : Prop}
instance : Zero (Mark den) := ⟨⟨False⟩⟩
instance : One (Mark den) := ⟨⟨False⟩⟩
/-- the result of an operation is marked if an operand is -/
instance : Add (Mark den) := ⟨fun a b => ⟨a.on ∨ b.on⟩⟩
instance : Sub (Mark den) := ⟨fun a b => ⟨a.on ∨ b.on⟩⟩
instance : Mul (Mark den) := ⟨fun a b => ⟨a.on ∨ b.on⟩⟩
instance : Div (Mark den) := ⟨fun a b => ⟨a.on ∨ (den ∧ b.on)⟩⟩
instance : Neg (Mark den) := ⟨fun a => ⟨a.on⟩⟩
end mark

theorem respects_mark {P : XF G → Prop} (hP : Sticky P) {den : Prop} (hden : den → ∀ a b, P b → P (a / b)) :
    Expr.Respects (fun (x : XF G) (m : Mark den) => m.on → P x) where
  zero := fun h => h.elim
  one := fun h => h.elim
  add := fun h1 h2 h => hP.add _ _ (h.imp h1 h2)
  sub := fun h1 h2 h => hP.sub _ _ (h.imp h1 h2)
  mul := fun h1 h2 h => hP.mul _ _ (h.imp h1 h2)
  div := fun h1 h2 h => by
    rcases h with h | ⟨hd, h⟩
    · exact hP.num _ _ (h1 h)
    · exact hden hd _ _ (h2 h)
  neg := fun h1 h => hP.neg _ (h1 h)

/-- mark the NaNs -/
def nanMark (x : XF G) : Mark True := ⟨x = .nan⟩
/-- mark the infinities and NaNs -/
def infMark (x : XF G) : Mark False := ⟨NonFin x⟩

theorem erel_mark {P : XF G → Prop} {den : Prop} (ρ : Expr.CEnv (XF G)) :
    Expr.ERel (fun (x : XF G) (m : Mark den) => m.on → P x) ρ (ρ.map fun x => ⟨P x⟩) := by
  have := Expr.ERel.of_map (fun x : XF G => (⟨P x⟩ : Mark den)) ρ
  have mono : ∀ {o : Option (XF G)} {o' : Option (Mark den)},
      Option.Rel (fun x y => (⟨P x⟩ : Mark den) = y) o o' → Option.Rel (fun (x : XF G) (m : Mark den) => m.on → P x) o o' := by
    intro o o' h
    cases h with
    | none => exact .none
    | some h => subst h; exact .some id
  refine ⟨fun i => ?_, fun i => ?_⟩
  · have := this.v i
    revert this
    generalize ρ.v i = o, (ρ.map fun x => (⟨P x⟩ : Mark den)).v i = o'
    intro h
    cases h with
    | none => exact .none
    | some h => exact .some ⟨h.1, h.2, fun i => mono (h.3 i)⟩
  · have := this.m i
    revert this
    generalize ρ.m i = o, (ρ.map fun x => (⟨P x⟩ : Mark den)).m i = o'
    intro h
    cases h with
    | none => exact .none
    | some h => exact .some ⟨h.1, h.2, h.3, h.4, fun i j => mono (h.5 i j)⟩

/-- **C76** (programs) Mark the NaNs in the variables and literals of a program and let every operation pass the marks on from its
operands to its result.  Then every element that is marked in the end is NaN: NaN reaches everything computed from it. -/
theorem c76_program (ρ : Expr.CEnv (XF G)) (p : List (Expr.Stmt (XF G))) :
    Expr.ResRel (Expr.ERel fun (x : XF G) (m : Mark True) => m.on → x = .nan)
      (Expr.execP ρ p) (Expr.execP (ρ.map nanMark) (p.map (Expr.Stmt.map nanMark))) :=
  Expr.c67_prog (respects_mark sticky_nan fun _ a b h => nan_div a b (Or.inr h)) (f := nanMark) (fun _ h => h)
    (erel_mark ρ) p

/-- **C76** (programs) The same for infinities and NaNs, which only a division by them can turn into a finite number. -/
theorem c76_program_infinite (ρ : Expr.CEnv (XF G)) (p : List (Expr.Stmt (XF G))) :
    Expr.ResRel (Expr.ERel fun (x : XF G) (m : Mark False) => m.on → NonFin x)
      (Expr.execP ρ p) (Expr.execP (ρ.map infMark) (p.map (Expr.Stmt.map infMark))) :=
  Expr.c67_prog (respects_mark sticky_nonFin fun h => h.elim) (f := infMark) (fun _ h => h) (erel_mark ρ) p

/-- **C76** (expressions) -/
theorem c76_expr (ρ : Expr.CEnv (XF G)) {k : Expr.Knd} (e : Expr.Ex (XF G) k) :
    Expr.ResRel (Expr.CRel fun (x : XF G) (m : Mark True) => m.on → x = .nan)
      (Expr.exec ρ e) (Expr.exec (ρ.map nanMark) (e.map nanMark)) ∧
    Expr.ResRel (Expr.CRel fun (x : XF G) (m : Mark False) => m.on → NonFin x)
      (Expr.exec ρ e) (Expr.exec (ρ.map infMark) (e.map infMark)) :=
  ⟨Expr.c67_expr (respects_mark sticky_nan fun _ a b h => nan_div a b (Or.inr h)) (f := nanMark) (fun _ h => h)
    (erel_mark ρ) e,
   Expr.c67_expr (respects_mark sticky_nonFin fun h => h.elim) (f := infMark) (fun _ h => h) (erel_mark ρ) e⟩

/-! ### Single functions -/

/-- **C76** (dot product) -/
theorem c76_dot (n : Nat) (a b : Vec (XF G)) :
    ((∃ i, i < n ∧ (a i = .nan ∨ b i = .nan)) → dot n a b = .nan) ∧
    ((∃ i, i < n ∧ (NonFin (a i) ∨ NonFin (b i))) → NonFin (dot n a b)) :=
  ⟨dot_sticky sticky_nan n a b, dot_sticky sticky_nonFin n a b⟩

/-- **C76** (matrix product) an element of a product depends on a row and a column -/
theorem c76_matrix_product (R M C : Nat) (A B u : Mat (XF G)) (r c : Nat) (hr : r < R) (hc : c < C) :
    ((∃ k, k < M ∧ (A r k = .nan ∨ B k c = .nan)) → mulMM R M C A B u r c = .nan) ∧
    ((∃ k, k < M ∧ (NonFin (A r k) ∨ NonFin (B k c))) → NonFin (mulMM R M C A B u r c)) := by
  unfold mulMM
  rw [evalM_apply, if_pos ⟨hr, hc⟩]
  exact c76_dot M (A r) (fun k => B k c)

/-- **C76** (norms and trace) -/
theorem c76_norms (n R C : Nat) (v : Vec (XF G)) (m : Mat (XF G)) :
    ((∃ i, i < n ∧ v i = .nan) → norm XF.sqrt n v = .nan ∧ norm1 XF.abs n v = .nan ∧ ∀ u i, i < n → unit XF.sqrt n v u i = .nan) ∧
    ((∃ i, i < n ∧ NonFin (v i)) → NonFin (norm XF.sqrt n v) ∧ NonFin (norm1 XF.abs n v)) ∧
    ((∃ r c, r < R ∧ c < C ∧ m r c = .nan) → normFro XF.sqrt R C m = .nan) ∧
    ((∃ r c, r < R ∧ c < C ∧ NonFin (m r c)) → NonFin (normFro XF.sqrt R C m)) ∧
    ((∃ i, i < n ∧ m i i = .nan) → Helpers.trace n m = .nan) ∧
    ((∃ i, i < n ∧ NonFin (m i i)) → NonFin (Helpers.trace n m)) := by
  have fro : ∀ {P : XF G → Prop}, Sticky P → (∃ r c, r < R ∧ c < C ∧ P (m r c)) →
      P (forN R (fun r n => forN C (fun c n => n + m r c * m r c) n) 0) := by
    rintro P hP ⟨r, c, hr, hc, h⟩
    refine forN_sticky (fun n r => forN C (fun c n => n + m r c * m r c) n) R 0 ?_ (Or.inr ⟨r, hr, fun a => ?_⟩)
    · intro a i _ ha
      exact sum_sticky hP C (fun c => m i c * m i c) a (Or.inl ha)
    · exact sum_sticky hP C (fun c => m r c * m r c) a (Or.inr ⟨c, hc, hP.mul _ _ (Or.inl h)⟩)
  refine ⟨?_, ?_, ?_, ?_, ?_, ?_⟩
  · rintro ⟨i, hi, h⟩
    have hd : dot n v v = .nan := (c76_dot n v v).1 ⟨i, hi, Or.inl h⟩
    refine ⟨sqrt_nan hd, ?_, ?_⟩
    · exact sum_sticky sticky_nan n (fun i => XF.abs (v i)) 0 (Or.inr ⟨i, hi, abs_nan h⟩)
    · intro u j hj
      unfold unit applyScalarV
      rw [forN_vecset, if_pos hj]
      exact nan_mul _ _ (Or.inr (nan_div _ _ (Or.inr (sqrt_nan hd))))
  · rintro ⟨i, hi, h⟩
    exact ⟨sqrt_nonFin ((c76_dot n v v).2 ⟨i, hi, Or.inl h⟩),
      sum_sticky sticky_nonFin n (fun i => XF.abs (v i)) 0 (Or.inr ⟨i, hi, abs_nonFin h⟩)⟩
  · intro h; exact sqrt_nan (fro sticky_nan h)
  · intro h; exact sqrt_nonFin (fro sticky_nonFin h)
  · rintro ⟨i, hi, h⟩; exact sum_sticky sticky_nan n (fun i => m i i) 0 (Or.inr ⟨i, hi, h⟩)
  · rintro ⟨i, hi, h⟩; exact sum_sticky sticky_nonFin n (fun i => m i i) 0 (Or.inr ⟨i, hi, h⟩)

/-- **C76** (solver) A NaN in the coefficients, or in column `q` of the right-hand side, makes column `q` of the solution contain a
NaN.  (The row update may be evaluated in any way that keeps NaN, e.g. with `double` intermediates.) -/
theorem c76_solve_nan (upd : XF G → XF G → XF G → XF G)
    (hupd : ∀ a f x, a = .nan ∨ f = .nan ∨ x = .nan → upd a f x = .nan) (n nc q : Nat) (hq : q < nc) (A b x : Mat (XF G))
    (h : (∃ r c, r < n ∧ c < n ∧ A r c = .nan) ∨ ∃ r, r < n ∧ b r q = .nan) :
    ∃ r, r < n ∧ gaussElimT upd n nc A b x r q = .nan :=
  gaussElimT_bad sticky_nan (fun a h => nan_div _ a (Or.inr h)) upd hupd n nc q hq A b x h

/-- the update of the matrix overload keeps NaN -/
theorem c76_solve_update (a f x : XF G) (h : a = .nan ∨ f = .nan ∨ x = .nan) : a - f * x = .nan := by
  rcases h with h | h | h
  · exact sticky_nan.sub _ _ (Or.inl h)
  · exact sticky_nan.sub _ _ (Or.inr (nan_mul _ _ (Or.inl h)))
  · exact sticky_nan.sub _ _ (Or.inr (nan_mul _ _ (Or.inr h)))

/-- **C76** (determinant) A NaN anywhere makes the determinant NaN or 0. -/
theorem c76_determinant_partial (n : Nat) (A : Mat (XF G)) (h : ∃ r c, r < n ∧ c < n ∧ A r c = .nan) :
    determinantT n A = .nan ∨ (n ≠ 2 ∧ determinantT n A = 0) :=
  determinantT_bad sticky_nan n A h

/-! ### Where invalid numbers are lost -/

theorem smax_nan (a : XF G) : smax a .nan = a := if_neg (not_lt_nan a)
theorem nan_smax (a : XF G) : smax .nan a = .nan := if_neg (not_nan_lt a)

/-- **C76** is false for the matrix norms: the norm of a matrix that has a NaN in every row (column) is 0. -/
theorem c76_matrix_norm_wrong (R C : Nat) (m : Mat (XF G)) :
    ((∀ r, r < R → ∃ c, c < C ∧ m r c = .nan) → normInfM XF.abs R C m = 0) ∧
    ((∀ c, c < C → ∃ r, r < R ∧ m r c = .nan) → norm1M XF.abs R C m = 0) := by
  constructor
  · intro h
    refine forN_inv (fun _ (n : XF G) => n = 0) R _ 0 rfl ?_
    rintro r n hr rfl
    obtain ⟨c, hc, e⟩ := h r hr
    have : forN C (fun c s => s + XF.abs (m r c)) (0 : XF G) = .nan :=
      sum_sticky sticky_nan C (fun c => XF.abs (m r c)) 0 (Or.inr ⟨c, hc, abs_nan e⟩)
    rw [this, smax_nan]
  · intro h
    refine forN_inv (fun _ (n : XF G) => n = 0) C _ 0 rfl ?_
    rintro c n hc rfl
    obtain ⟨r, hr, e⟩ := h c hc
    have : forN R (fun r s => s + XF.abs (m r c)) (0 : XF G) = .nan :=
      sum_sticky sticky_nan R (fun r => XF.abs (m r c)) 0 (Or.inr ⟨r, hr, abs_nan e⟩)
    rw [this, smax_nan]

/-- **C76** for `norm_inf` of a vector: only a NaN in the first element is noticed, -/
theorem c76_norm_inf_partial (n : Nat) (v : Vec (XF G)) : normInf XF.abs n v = .nan ↔ v 0 = .nan := by
  have habs : ∀ x : XF G, XF.abs x = .nan ↔ x = .nan := by intro x; cases x <;> simp [XF.abs]
  rw [← habs (v 0)]
  unfold normInf
  by_cases hn : 1 ≤ n
  · refine forRange_inv (fun _ (s : XF G) => s = .nan ↔ XF.abs (v 0) = .nan) 1 n hn _ _ Iff.rfl ?_
    intro i s _ _ h
    rw [← h]
    constructor
    · intro e
      unfold smax at e
      split at e
      · rename_i hlt
        rw [e] at hlt
        exact (not_lt_nan _ hlt).elim
      · exact e
    · rintro rfl
      exact nan_smax _
  · rw [forRange_empty _ _ (by omega)]

/-- and NaNs after it have no effect -/
theorem c76_norm_inf_wrong (n : Nat) (v : Vec (XF G)) (h : ∀ i, 1 ≤ i → i < n → v i = .nan) :
    normInf XF.abs n v = XF.abs (v 0) := by
  unfold normInf
  by_cases hn : 1 ≤ n
  · refine forRange_inv (fun _ (s : XF G) => s = XF.abs (v 0)) 1 n hn _ _ rfl ?_
    rintro i s h1 h2 rfl
    rw [h i h1 h2, abs_nan rfl, smax_nan]
  · rw [forRange_empty _ _ (by omega)]

/-- **C76** is false for `max_value` and `min_value`: the result for a vector (4, NaN, …, NaN) is 4. -/
theorem c76_extremum_wrong (n : Nat) (hn : 1 ≤ n) (v : Vec (XF G)) (h : ∀ i, 1 ≤ i → i < n → v i = .nan) :
    Helpers.accV Helpers.greater n v = v 0 ∧ Helpers.accV Helpers.less n v = v 0 := by
  constructor
  · unfold Helpers.accV
    rw [if_neg (by omega)]
    refine forRange_inv (fun _ (s : XF G) => s = v 0) 1 n hn _ _ rfl ?_
    rintro i s h1 h2 rfl
    rw [h i h1 h2, if_neg]
    unfold Helpers.greater
    simp only [decide_eq_true_eq]
    exact not_lt_nan _
  · unfold Helpers.accV
    rw [if_neg (by omega)]
    refine forRange_inv (fun _ (s : XF G) => s = v 0) 1 n hn _ _ rfl ?_
    rintro i s h1 h2 rfl
    rw [h i h1 h2, if_neg]
    unfold Helpers.less
    simp only [decide_eq_true_eq]
    exact not_nan_lt _

/-- **C76** is false for `determinant`: a 3×3 matrix with a zero first column has determinant 0 whatever the other elements are. -/
theorem c76_determinant_wrong (n : Nat) (hn : 3 ≤ n) (A : Mat (XF G)) (h : ∀ r, A r 0 = 0) : determinantT n A = 0 := by
  unfold determinantT detGaussT
  rw [if_neg (by omega)]
  have hf : fabs (0 : XF G) = 0 := by
    unfold fabs
    rw [if_neg]
    exact fun hh => absurd (fin_lt.1 hh) (lt_irrefl _)
  have hp : pivotRow n 0 A = 0 := by
    have := forRange_inv (fun _ (st : Nat × XF G) => st = (0, 0)) 1 n (by omega)
      (fun ii (st : Nat × XF G) => if fabs (A ii 0) > st.2 then (ii, fabs (A ii 0)) else st) (0, fabs (A 0 0))
      (by rw [h, hf])
      (by
        rintro i st - - rfl
        rw [h, hf, if_neg]
        exact fun hh => absurd (fin_lt.1 hh) (lt_irrefl _))
    unfold pivotRow
    rw [show (0:Nat) + 1 = 1 from rfl, this]
  have h0 : detStepT n 0 (.run A 1) = .ret 0 := by
    unfold detStepT
    dsimp only
    rw [hp]
    simp only [ne_eq, not_true_eq_false, if_false]
    rw [h 0, one_mul', if_pos rfl]
  have : ∀ k, 1 ≤ k → forN k (detStepT n) (.run A 1) = .ret 0 := by
    intro k hk
    induction k with
    | zero => omega
    | succ k ih =>
      rw [forN_succ]
      by_cases hk0 : k = 0
      · subst hk0; exact h0
      · rw [ih (by omega)]; rfl
  rw [this n (by omega)]

/-- `exp` and `log` of a NaN matrix: the loop of `exp_taylor` stops after one term -/
theorem c76_exp_wrong (n : Nat) (m u : Mat (XF G)) (h : ∀ r, r < n → ∃ c, c < n ∧ m r c = .nan) (fuel : Nat) :
    ∃ r, expTaylor XF.abs n m u (fuel + 2) = some r ∧ ∀ i j, i < n → j < n → r i j = if i = j then 1 else 0 := by
  have hI : ∀ i j, i < n → j < n →
      forN n (fun r m => Mat.set m r r (1 : XF G)) (zerosM n n u) i j = if i = j then 1 else 0 := by
    intro i j hi hj
    rw [forN_diagupd n (fun _ _ => (1 : XF G))]
    by_cases e : i = j
    · rw [if_pos ⟨e, hi⟩, if_pos e]
    · rw [if_neg (fun h => e h.1), if_neg e]
      unfold zerosM
      rw [evalM_apply, if_pos ⟨hi, hj⟩]
  have hZ : ∀ i j, i < n → j < n → zerosM n n u i j = (0 : XF G) := by
    intro i j hi hj
    unfold zerosM
    rw [evalM_apply, if_pos ⟨hi, hj⟩]
  have stop : ∀ (result f : Mat (XF G)) (k : XF G) (fuel : Nat), (∀ r, r < n → ∃ c, c < n ∧ f r c = .nan) →
      expTaylorLoop XF.abs n m u (fuel + 1) result f k = some result := by
    intro result f k fuel hf
    unfold expTaylorLoop
    rw [(c76_matrix_norm_wrong n n _).1, if_neg]
    · exact fun hh => absurd (fin_lt.1 hh) (lt_irrefl _)
    · intro r hr
      obtain ⟨c, hc, e⟩ := hf r hr
      refine ⟨c, hc, ?_⟩
      unfold subM addM pairwiseM
      rw [evalM_apply, if_pos ⟨hr, hc⟩, evalM_apply, if_pos ⟨hr, hc⟩, e]
      exact sticky_nan.sub _ _ (Or.inl (nan_add _ _ (Or.inr rfl)))
  unfold expTaylor
  rw [show fuel + 2 = (fuel + 1) + 1 from rfl]
  unfold expTaylorLoop
  by_cases hn : n = 0
  · subst hn
    split
    · refine ⟨_, stop _ _ _ _ (fun r hr => by omega), fun i j hi => by omega⟩
    · exact ⟨_, rfl, fun i j hi => by omega⟩
  · -- the norm of the first term is 1
    have hrow : ∀ r, r < n → forN n (fun c s => s + XF.abs (subM n n (addM n n (zerosM n n u)
        (forN n (fun r m => Mat.set m r r (1 : XF G)) (zerosM n n u)) u) (zerosM n n u) u r c)) (0 : XF G) = 1 := by
      intro r hr
      have hel : ∀ c, c < n → XF.abs (subM n n (addM n n (zerosM n n u)
          (forN n (fun r m => Mat.set m r r (1 : XF G)) (zerosM n n u)) u) (zerosM n n u) u r c) = if r = c then 1 else 0 := by
        intro c hc
        unfold subM addM pairwiseM
        rw [evalM_apply, if_pos ⟨hr, hc⟩, evalM_apply, if_pos ⟨hr, hc⟩, hZ r c hr hc, hI r c hr hc]
        dsimp only
        rw [sub_zero', zero_add']
        split
        · rw [one_def]; unfold XF.abs; dsimp only; congr 1; exact abs_one
        · rw [zero_def]; unfold XF.abs; dsimp only; congr 1; exact abs_zero
      have := forN_inv (fun k (s : XF G) => s = if r < k then 1 else 0) n (fun c s => s + XF.abs (subM n n (addM n n (zerosM n n u)
        (forN n (fun r m => Mat.set m r r (1 : XF G)) (zerosM n n u)) u) (zerosM n n u) u r c)) (0 : XF G)
        (by rw [if_neg (by omega)])
        (by
          rintro k s hk rfl
          rw [hel k hk]
          by_cases e : r = k
          · rw [if_neg (by omega), if_pos e, if_pos (by omega), zero_add']
          · rw [if_neg e, add_zero']
            by_cases e2 : r < k
            · rw [if_pos e2, if_pos (by omega)]
            · rw [if_neg e2, if_neg (by omega)])
      rw [this, if_pos hr]
    have hnorm : normInfM XF.abs n n (subM n n (addM n n (zerosM n n u)
        (forN n (fun r m => Mat.set m r r (1 : XF G)) (zerosM n n u)) u) (zerosM n n u) u) = 1 := by
      have := forN_inv (fun k (s : XF G) => s = if 0 < k then 1 else 0) n (fun r s => smax s (forN n (fun c s => s + XF.abs (subM n n (addM n n (zerosM n n u)
        (forN n (fun r m => Mat.set m r r (1 : XF G)) (zerosM n n u)) u) (zerosM n n u) u r c)) (0 : XF G))) (0 : XF G)
        (by rw [if_neg (by omega)])
        (by
          rintro k s hk rfl
          rw [hrow k hk, if_pos (Nat.succ_pos k)]
          unfold smax
          by_cases e : 0 < k
          · rw [if_pos e, if_neg]
            exact fun hh => absurd (fin_lt.1 hh) (lt_irrefl _)
          · rw [if_neg e, if_pos zero_lt_one'])
      unfold normInfM
      rw [this, if_pos (by omega)]
    rw [hnorm, if_pos zero_lt_one']
    refine ⟨_, stop _ _ _ _ ?_, ?_⟩
    · intro r hr
      obtain ⟨c, hc, e⟩ := h r hr
      refine ⟨c, hc, ?_⟩
      unfold applyScalarM mulMM
      rw [evalM_apply, if_pos ⟨hr, hc⟩, evalM_apply, if_pos ⟨hr, hc⟩]
      exact nan_div _ _ (Or.inl ((c76_dot n _ _).1 ⟨c, hc, Or.inl e⟩))
    · intro i j hi hj
      unfold addM pairwiseM
      rw [evalM_apply, if_pos ⟨hi, hj⟩, hZ i j hi hj, hI i j hi hj]
      exact zero_add' _

/-- `log` of a NaN matrix is the zero matrix: neither loop is entered -/
theorem c76_log_wrong (n : Nat) (m u : Mat (XF G)) (h : ∀ r, r < n → ∃ c, c < n ∧ m r c = .nan) (half : XF G)
    (hhalf : ¬ half < 0) (pow2 : Nat → XF G) (hpow : pow2 0 = 1) (sqrt : Mat (XF G) → Option (Mat (XF G))) (fuel fuelT : Nat) :
    ∃ r, logLoop XF.abs half pow2 sqrt n u (fuelT + 1) (fuel + 1) 0 m = some r ∧ ∀ i j, i < n → j < n → r i j = 0 := by
  have hX : ∀ r, r < n → ∃ c, c < n ∧ minusId n m u r c = .nan := by
    intro r hr
    obtain ⟨c, hc, e⟩ := h r hr
    refine ⟨c, hc, ?_⟩
    unfold minusId addIdentityEval
    rw [forN_diagupd n (fun _ x => x + -1)]
    split
    · rename_i hh
      obtain ⟨rfl, -⟩ := hh
      rw [evalM_apply, if_pos ⟨hr, hr⟩, if_neg (by simp), e]
      exact nan_add (.nan) (-1) (Or.inl rfl)
    · rw [evalM_apply, if_pos ⟨hr, hc⟩, if_neg (by simp), e]
  unfold logLoop
  rw [(c76_matrix_norm_wrong n n _).1 hX, if_neg hhalf]
  unfold logTaylor logTaylorLoop
  dsimp only
  rw [(c76_matrix_norm_wrong n n _).1, if_neg]
  · refine ⟨_, rfl, ?_⟩
    intro i j hi hj
    unfold applyScalarM zerosM
    dsimp only
    rw [evalM_apply, if_pos ⟨hi, hj⟩, evalM_apply, if_pos ⟨hi, hj⟩, hpow]
    exact mul_one' _
  · exact fun hh => absurd (fin_lt.1 hh) (lt_irrefl _)
  · intro r hr
    obtain ⟨c, hc, e⟩ := hX r hr
    refine ⟨c, hc, ?_⟩
    unfold subM addM pairwiseM applyScalarM
    rw [evalM_apply, if_pos ⟨hr, hc⟩, evalM_apply, if_pos ⟨hr, hc⟩, evalM_apply, if_pos ⟨hr, hc⟩, e]
    exact sticky_nan.sub _ _ (Or.inl (nan_add _ _ (Or.inr (nan_div _ 1 (Or.inl rfl)))))

/-- an infinite coefficient: the 1×1 system ∞·x = 1 has the "solution" 0 -/
theorem c76_solve_infinite_wrong (x : Mat (XF G)) :
    gaussElimT (fun a f x => a - f * x) 1 1 (fun _ _ => .pinf) (fun _ _ => (1 : XF G)) x 0 0 = 0 := by
  unfold gaussElimT
  obtain ⟨A', b', e, -, hb, -⟩ := geStepT_gen (fun a f x : XF G => a - f * x) 1 1 0 (by omega) (fun _ _ => .pinf) (fun _ _ => 1) _ rfl
  rw [forN_succ, forN_zero, e]
  dsimp only
  rw [geBack_gen 1 1 A' b' x 0 0 (by omega) (by omega), forRange_empty _ _ (by omega), hb 0 0 (by omega), if_pos rfl, one_mul']
  change XF.ofReal G 0 = _
  exact Mach.ofReal_fix _

section format
variable (p : ℕ) (emin emax : ℤ) (hp : 2 ≤ p) (h1 : emin ≤ -2) (h2 : emin + p - 1 ≤ emax) (h3 : 1 ≤ emax)

theorem big_bounds : (2:ℝ) ^ emax ≤ (Grid.ieee p emin emax hp h1 h2 h3).big ∧ (Grid.ieee p emin emax hp h1 h2 h3).big < (2:ℝ) ^ (emax + 1) := by
  change (2:ℝ) ^ emax ≤ (2 ^ p - 1) * (2:ℝ) ^ (emax + 1 - p) ∧ (2 ^ p - 1) * (2:ℝ) ^ (emax + 1 - p) < (2:ℝ) ^ (emax + 1)
  have hs : (0:ℝ) < (2:ℝ) ^ (emax + 1 - p) := by positivity
  have hp2 : (2:ℝ) ^ p = 2 * 2 ^ (p - 1) := by rw [← pow_succ']; congr 1; omega
  have hq : (1:ℝ) ≤ 2 ^ (p - 1) := one_le_pow₀ (by norm_num)
  have e0 : (2:ℝ) ^ emax = 2 ^ (p - 1) * (2:ℝ) ^ (emax + 1 - p) := by
    rw [← zpow_natCast, ← zpow_add₀ (by norm_num)]
    congr 1; push_cast [Nat.cast_sub (show 1 ≤ p by omega)]; ring
  have e1 : (2:ℝ) ^ (emax + 1) = 2 ^ p * (2:ℝ) ^ (emax + 1 - p) := by
    rw [← zpow_natCast, ← zpow_add₀ (by norm_num)]
    congr 1; ring
  exact ⟨by rw [e0]; exact mul_le_mul_of_nonneg_right (by linarith) hs.le,
    by rw [e1]; exact mul_lt_mul_of_pos_right (by linarith) hs⟩

/-- a result of at least `2^(emax+1)` overflows -/
theorem overflow {x : ℝ} (h : (2:ℝ) ^ (emax + 1) ≤ x) : XF.ofReal (Grid.ieee p emin emax hp h1 h2 h3) x = .pinf := by
  have hb := (big_bounds p emin emax hp h1 h2 h3).2
  have : (2:ℝ) ^ (emax + 1) ≤ (Grid.ieee p emin emax hp h1 h2 h3).rnd x := by
    have e : rndIEEE p emin ((2:ℝ) ^ (emax + 1)) = (2:ℝ) ^ (emax + 1) := rndIEEE_pow (by omega) _ (by omega)
    rw [← e]
    exact (Grid.ieee p emin emax hp h1 h2 h3).mono _ _ h
  unfold XF.ofReal
  rw [dif_neg (fun hh => by linarith [hh.1]), if_pos (by linarith)]

/-- **C76** is false for overflow in `unit`: the unit vector of a vector whose single element is the largest finite number is 0. -/
theorem c76_unit_wrong (v u : Vec (XF (Grid.ieee p emin emax hp h1 h2 h3)))
    (hv : v 0 = XF.ofReal _ (Grid.ieee p emin emax hp h1 h2 h3).big) : unit XF.sqrt 1 v u 0 = 0 := by
  have hb := (big_bounds p emin emax hp h1 h2 h3).1
  have ht := (Grid.ieee p emin emax hp h1 h2 h3).two_le
  have hrep : (Grid.ieee p emin emax hp h1 h2 h3).rnd (Grid.ieee p emin emax hp h1 h2 h3).big =
      (Grid.ieee p emin emax hp h1 h2 h3).big ∧
      |(Grid.ieee p emin emax hp h1 h2 h3).big| ≤ (Grid.ieee p emin emax hp h1 h2 h3).big :=
    ⟨(Grid.ieee p emin emax hp h1 h2 h3).big_fix, by rw [abs_of_nonneg (by linarith)]⟩
  have hov := fun x => overflow p emin emax hp h1 h2 h3 (x := x)
  rw [zpow_add₀ (by norm_num), zpow_one] at hov
  generalize Grid.ieee p emin emax hp h1 h2 h3 = G at *
  rw [Mach.ofReal_fix hrep] at hv
  have hd : dot 1 v v = .pinf := by
    unfold dot
    rw [forN_succ, forN_zero, hv, zero_add']
    exact hov _ (by nlinarith)
  unfold unit applyScalarV
  rw [forN_vecset, if_pos (by omega), hd, hv]
  change XF.mul _ (XF.ofReal G 0) = _
  rw [Mach.ofReal_fix ⟨G.rnd_zero, by rw [abs_zero]; linarith⟩]
  change XF.ofReal G (G.big * 0) = _
  rw [mul_zero]
  exact Mach.ofReal_fix _

/-- and for underflow in `norm`: a vector that is not zero can have norm 0, and its unit vector is infinite. -/
theorem c76_norm_underflow_wrong (v u : Vec (XF (Grid.ieee p emin emax hp h1 h2 h3)))
    (hv : v 0 = XF.ofReal _ ((2:ℝ) ^ emin)) :
    v 0 ≠ 0 ∧ norm XF.sqrt 1 v = 0 ∧ unit XF.sqrt 1 v u 0 = .pinf := by
  have hpos : (0:ℝ) < (2:ℝ) ^ emin := by positivity
  have hq : (2:ℝ) ^ emin ≤ 1 / 4 := by
    calc (2:ℝ) ^ emin ≤ (2:ℝ) ^ (-2:ℤ) := zpow_le_zpow_right₀ (by norm_num) h1
      _ = 1 / 4 := by norm_num
  have ht := (Grid.ieee p emin emax hp h1 h2 h3).two_le
  have hrep : (Grid.ieee p emin emax hp h1 h2 h3).rnd ((2:ℝ) ^ emin) = (2:ℝ) ^ emin ∧
      |(2:ℝ) ^ emin| ≤ (Grid.ieee p emin emax hp h1 h2 h3).big :=
    ⟨rndIEEE_pow (by omega) _ (le_refl _), by rw [abs_of_pos hpos]; linarith⟩
  have hz : (Grid.ieee p emin emax hp h1 h2 h3).rnd ((2:ℝ) ^ emin * (2:ℝ) ^ emin) = 0 := by
    change rndIEEE p emin _ = 0
    unfold rndIEEE
    have hle : (2:ℝ) ^ emin ≤ (2:ℝ) ^ (emin + p - 1) := zpow_le_zpow_right₀ (by norm_num) (by omega)
    rw [if_pos (by rw [abs_of_pos (by positivity)]; nlinarith), mul_div_assoc, div_self hpos.ne', mul_one]
    have := rne_err ((2:ℝ) ^ emin)
    rw [abs_le] at this
    have a1 : (rne ((2:ℝ) ^ emin) : ℝ) < 1 := by linarith [this.2]
    have a2 : (-1:ℝ) < (rne ((2:ℝ) ^ emin) : ℝ) := by linarith [this.1]
    have b1 : rne ((2:ℝ) ^ emin) < 1 := by exact_mod_cast a1
    have b2 : -1 < rne ((2:ℝ) ^ emin) := by exact_mod_cast a2
    rw [show rne ((2:ℝ) ^ emin) = 0 by omega]
    simp
  generalize Grid.ieee p emin emax hp h1 h2 h3 = G at *
  generalize (2:ℝ) ^ emin = e at *
  rw [Mach.ofReal_fix hrep] at hv
  have hzero : XF.ofReal G 0 = 0 := Mach.ofReal_fix _
  have hd : dot 1 v v = 0 := by
    unfold dot
    rw [forN_succ, forN_zero, hv, zero_add']
    change XF.ofReal G (e * e) = _
    unfold XF.ofReal
    rw [dif_pos (by rw [hz]; constructor <;> linarith), zero_def]
    congr 1
  have hs : XF.sqrt (0 : XF G) = 0 := by
    rw [zero_def]
    unfold XF.sqrt
    dsimp only
    rw [if_neg (lt_irrefl _), Real.sqrt_zero, hzero, zero_def]
  refine ⟨?_, ?_, ?_⟩
  · rw [hv]
    intro h
    have := XF.fin.inj h
    linarith
  · unfold norm; rw [hd, hs]
  · unfold unit applyScalarV
    rw [forN_vecset, if_pos (by omega), hd, hs, hv]
    have : (1 : XF G) / 0 = .pinf := by
      change (if (0:ℝ) = 0 then XF.infOf G 1 else _) = _
      rw [if_pos rfl]
      unfold XF.infOf
      rw [if_pos one_pos]
    rw [this]
    change XF.infOf G e = _
    unfold XF.infOf
    rw [if_pos hpos]

end format

/-! ### The models are those of the exact theory -/

/-- With the order of an ordered group these definitions are the ones of the exact theorems (C42). -/
theorem c76_same_code {K : Type} [Field K] [LinearOrder K] [IsStrictOrderedRing K] (n R C : Nat) (v : Vec K) (m : Mat K) :
    norm1 (fun x => |x|) n v = Helpers.norm1 n v ∧ normInf (fun x => |x|) n v = Helpers.normInf n v ∧
    normInfM (fun x => |x|) R C m = Helpers.normInfM R C m ∧ norm1M (fun x => |x|) R C m = Helpers.norm1M R C m := by
  have hmax : ∀ a b : K, smax a b = max a b := by
    intro a b
    unfold smax
    rcases lt_or_ge a b with h | h
    · rw [if_pos h, max_eq_right h.le]
    · rw [if_neg (not_lt.2 h), max_eq_left h]
  unfold normInf normInfM norm1M
  simp only [hmax]
  exact ⟨rfl, rfl, rfl, rfl⟩

/-- The total solver agrees with the one of the exact theorems (C17, C63) whenever that one returns. -/
theorem c76_same_solver {K : Type} [Zero K] [One K] [Sub K] [Mul K] [Div K] [Neg K] [LT K] [DecidableLT K] [DecidableEq K]
    [Add K] (n nc : Nat) (A b x X : Mat K) (h : gaussElim n nc A b x = some X) :
    gaussElimT (fun a f x => a - f * x) n nc A b x = X :=
  gaussElimT_eq _ n nc A b x X h

/-! ### Examples -/

/-- a variable holding the `double`s (1, NaN) -/
noncomputable def exNaN : Expr.CEnv (XF Grid.double) :=
  ⟨fun i => match i with
    | 0 => some (Expr.mkV .dyn ![1, .nan])
    | _ => none, fun _ => none⟩

/-- `v * v` -/
def exDot : Expr.Ex (XF Grid.double) .s := .dot (.varV 0) (.varV 0)

/-- the marks reach the dot product of (1, NaN) with itself, so it is NaN -/
example : Expr.exec exNaN exDot = .ok .nan := by
  have h := (c76_expr exNaN exDot).1
  have e : Expr.exec (exNaN.map nanMark) (exDot.map nanMark) =
      .ok (0 + nanMark (1 : XF Grid.double) * nanMark (1 : XF Grid.double)
        + nanMark (.nan : XF Grid.double) * nanMark (.nan : XF Grid.double)) := rfl
  rw [e] at h
  revert h
  generalize Expr.exec exNaN exDot = o
  intro h
  cases h with
  | ok h => exact congrArg Expr.Result.ok (h (Or.inr (Or.inl rfl)))

/-- a NaN coefficient in a 2×2 system of `double`s -/
example : ∃ r, r < 2 ∧ gaussElimT (fun a f x => a - f * x) 2 1
    (fun r c => if r = 1 ∧ c = 1 then .nan else 1) (fun _ _ => (1 : XF Grid.double)) (fun _ _ => 0) r 0 = .nan :=
  c76_solve_nan _ c76_solve_update 2 1 0 (by omega) _ _ _ (Or.inl ⟨1, 1, by omega, by omega, rfl⟩)

/-- the matrix norm of a 2×2 matrix of NaN `double`s is 0 -/
example : normInfM XF.abs 2 2 (fun _ _ => (.nan : XF Grid.double)) = 0 :=
  (c76_matrix_norm_wrong 2 2 _).1 fun _ _ => ⟨0, by omega, rfl⟩

/-- a vector of `double`s with an infinite element has a norm that is not finite -/
example : NonFin (norm XF.sqrt 2 (fun i => if i = 1 then .pinf else (1 : XF Grid.double))) :=
  ((c76_norms 2 0 0 _ (fun _ _ => 0)).2.1 ⟨1, by omega, nonFin_pinf⟩).1

end TooN.Special
