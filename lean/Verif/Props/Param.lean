import Verif.Proof.Param
import Verif.Props.Prog
import Verif.Props.Fad
import Verif.Model.Float
import Mathlib.Algebra.Field.Basic
/-!
# C67: the element type does not matter

Expressions and programs over the library's vectors and matrices do the same thing for every element type.
If two element types are related by a relation `R` that all their operations respect, then a program run
on related data meets the same fate (rejected by the compiler, aborts, undefined, or finishes) and leaves
related data.  No algebraic law is assumed of either type, so this covers `float` and `double`.

Consequences: conformance checks and memory safety (C65, C66) do not depend on the element type; programs
commute with homomorphisms; on forward-mode numbers (FADBAD) every program computes derivatives;
floating-point results are exact as long as all intermediate results are representable.
-/
set_option linter.unusedSectionVars false
set_option linter.unusedSimpArgs false
namespace TooN.Expr

/-- the same fate, and related results -/
inductive ResRel {α β : Type} (P : α → β → Prop) : Result α → Result β → Prop
  | compileError : ResRel P .compileError .compileError
  | abort : ResRel P .abort .abort
  | ub : ResRel P .ub .ub
  | ok {a b} : P a b → ResRel P (.ok a) (.ok b)

variable {K K' : Type}

section main
variable [Zero K] [One K] [Add K] [Sub K] [Mul K] [Div K] [Neg K]
  [Zero K'] [One K'] [Add K'] [Sub K'] [Mul K'] [Div K'] [Neg K']

/-- **C67** (expressions) -/
theorem c67_expr {R : K → K' → Prop} (h : Respects R) {f : K → K'} (hf : ∀ x, R x (f x))
    {ρ : CEnv K} {ρ' : CEnv K'} (he : ERel R ρ ρ') {k : Knd} (e : Ex K k) :
    ResRel (CRel R) (exec ρ e) (exec ρ' (e.map f)) := by
  unfold exec
  rw [comp_map, types_rel he]
  cases comp ρ'.types e with
  | none => exact .compileError
  | some t =>
    have := run_rel h hf he e
    dsimp only
    revert this
    generalize run ρ e = o, run ρ' (e.map f) = o'
    intro this
    cases this with
    | ok h => exact .ok h
    | abort => exact .abort
    | ub => exact .ub

/-- **C67** (programs) -/
theorem c67_prog {R : K → K' → Prop} (h : Respects R) {f : K → K'} (hf : ∀ x, R x (f x))
    {ρ : CEnv K} {ρ' : CEnv K'} (he : ERel R ρ ρ') (p : List (Stmt K)) :
    ResRel (ERel R) (execP ρ p) (execP ρ' (p.map (Stmt.map f))) := by
  unfold execP
  rw [compP_map, types_rel he]
  cases compP ρ'.types p with
  | none => exact .compileError
  | some t =>
    have := runP_rel h hf he p
    dsimp only
    revert this
    generalize runP ρ p = o, runP ρ' (p.map (Stmt.map f)) = o'
    intro this
    cases this with
    | ok h => exact .ok h
    | abort => exact .abort
    | ub => exact .ub

theorem respects_any : Respects (AnyRel : K → K' → Prop) :=
  ⟨trivial, trivial, fun _ _ => trivial, fun _ _ => trivial, fun _ _ => trivial, fun _ _ => trivial,
    fun _ => trivial⟩

end main

/-! ### Sizes and safety for every element type -/

/-- the same variables with the same declared and actual sizes, and the same initialised elements -/
def SameSizes (ρ : CEnv K) (ρ' : CEnv K') : Prop := ERel AnyRel ρ ρ'

section safety
variable [Zero K] [One K] [Add K] [Sub K] [Mul K] [Div K] [Neg K]

/-- **C67** (fate) Whether a program compiles, aborts, is undefined or finishes, and the sizes of all
variables afterwards, depend only on the sizes of the variables before, and not on the elements, the
element type, or its arithmetic. -/
theorem c67_fate [Zero K'] [One K'] [Add K'] [Sub K'] [Mul K'] [Div K'] [Neg K'] (f : K → K')
    {ρ : CEnv K} {ρ' : CEnv K'} (hs : SameSizes ρ ρ') (p : List (Stmt K)) :
    ResRel SameSizes (execP ρ p) (execP ρ' (p.map (Stmt.map f))) :=
  c67_prog respects_any (fun _ => trivial) hs p

/-- **C67** (safety) A program over any element type that avoids the library's restrictions — judged by
running it in exact arithmetic on data of the same sizes — never reads or writes out of bounds or
uninitialised memory. -/
theorem c67_safe {ρ : CEnv K} {ρ₀ : CEnv ℚ} {σ : SEnv ℚ} (hr : EnvRep ρ₀ σ) (hs : SameSizes ρ ρ₀)
    (f : K → ℚ) (p : List (Stmt K)) (ha : Avoids σ (p.map (Stmt.map f))) : execP ρ p ≠ .ub := by
  intro he
  have := c67_fate f hs p
  rw [he] at this
  have h2 := c66_safe hr _ ha
  cases h : execP ρ₀ (p.map (Stmt.map f)) <;> rw [h] at this h2 <;> first | exact h2 rfl | cases this

/-- **C67** (rejection) and it is rejected (by the compiler or at run time) exactly if its sizes do not fit. -/
theorem c67_reject {ρ : CEnv K} {ρ₀ : CEnv ℚ} {σ : SEnv ℚ} (hr : EnvRep ρ₀ σ) (hs : SameSizes ρ ρ₀)
    (f : K → ℚ) (p : List (Stmt K)) (ha : Avoids σ (p.map (Stmt.map f))) :
    (∀ σ', ¬ Steps σ (p.map (Stmt.map f)) σ') ↔ execP ρ p = .compileError ∨ execP ρ p = .abort := by
  have h2 := c66_reject hr _ ha
  rw [h2]
  have := c67_fate f hs p
  cases h : execP ρ₀ (p.map (Stmt.map f)) <;> cases h' : execP ρ p <;> rw [h, h'] at this <;>
    first | (cases this; done) | simp

/-- **C67** (safety of expressions) -/
theorem c67_safe_expr {ρ : CEnv K} {ρ₀ : CEnv ℚ} {σ : SEnv ℚ} (hr : EnvRep ρ₀ σ) (hs : SameSizes ρ ρ₀)
    (f : K → ℚ) {k : Knd} (e : Ex K k) (hq : ¬ Quirk ρ₀.types σ (e.map f)) :
    exec ρ e ≠ .ub ∧
    ((∀ x, ¬ Den σ (e.map f) x) ↔ exec ρ e = .compileError ∨ exec ρ e = .abort) := by
  have := c67_expr (R := AnyRel) respects_any (f := f) (fun _ => trivial) hs e
  have h1 := c65_safe hr _ hq
  have h2 := c65_reject hr _ hq
  rw [h2]
  cases h : exec ρ₀ (e.map f) <;> cases h' : exec ρ e <;> rw [h, h'] at this <;> rw [h] at h1 <;>
    first | (cases this; done) | exact (h1 rfl).elim | simp

end safety

/-! ### Homomorphisms -/

def VB.map (f : K → K') (b : VB K) : VB K' := ⟨b.S, b.n, fun i => (b.cell i).map f⟩
def MB.map (f : K → K') (b : MB K) : MB K' := ⟨b.R, b.C, b.r, b.c, fun i j => (b.cell i j).map f⟩
def CVal.map (f : K → K') : {k : Knd} → CVal K k → CVal K' k
  | .s => f
  | .v => VB.map f
  | .m => MB.map f
/-- every element replaced by its image -/
def CEnv.map (f : K → K') (ρ : CEnv K) : CEnv K' :=
  ⟨fun i => (ρ.v i).map (VB.map f), fun i => (ρ.m i).map (MB.map f)⟩
def Result.map {α β : Type} (f : α → β) : Result α → Result β
  | .compileError => .compileError
  | .abort => .abort
  | .ub => .ub
  | .ok a => .ok (f a)

theorem rel_map (f : K → K') (o : Option K) : Option.Rel (fun x y => f x = y) o (o.map f) := by
  cases o with
  | none => exact .none
  | some x => exact .some rfl
theorem VRel.of_map (f : K → K') (b : VB K) : VRel (fun x y => f x = y) b (b.map f) :=
  ⟨rfl, rfl, fun _ => rel_map f _⟩
theorem MRel.of_map (f : K → K') (b : MB K) : MRel (fun x y => f x = y) b (b.map f) :=
  ⟨rfl, rfl, rfl, rfl, fun _ _ => rel_map f _⟩
theorem ERel.of_map (f : K → K') (ρ : CEnv K) : ERel (fun x y => f x = y) ρ (ρ.map f) := by
  refine ⟨fun i => ?_, fun i => ?_⟩
  · unfold CEnv.map; dsimp only
    cases ρ.v i with
    | none => exact .none
    | some b => exact .some (.of_map f b)
  · unfold CEnv.map; dsimp only
    cases ρ.m i with
    | none => exact .none
    | some b => exact .some (.of_map f b)

theorem rel_eq_map {α β : Type} {P : α → β → Prop} {g : α → β} (hg : ∀ a b, P a b → g a = b)
    {o : Option α} {o' : Option β} (h : Option.Rel P o o') : o.map g = o' := by
  cases h with
  | none => rfl
  | some h => exact congrArg some (hg _ _ h)
theorem VRel.eq_map {f : K → K'} {b : VB K} {b' : VB K'} (h : VRel (fun x y => f x = y) b b') :
    b.map f = b' := by
  cases b; cases b'
  obtain ⟨h1, h2, h3⟩ := h
  dsimp only at h1 h2 h3
  unfold VB.map
  subst h1 h2
  congr 1
  funext i
  exact rel_eq_map (fun _ _ h => h) (h3 i)
theorem MRel.eq_map {f : K → K'} {b : MB K} {b' : MB K'} (h : MRel (fun x y => f x = y) b b') :
    b.map f = b' := by
  cases b; cases b'
  obtain ⟨h1, h2, h3, h4, h5⟩ := h
  dsimp only at h1 h2 h3 h4 h5
  unfold MB.map
  subst h1 h2 h3 h4
  congr 1
  funext i j
  exact rel_eq_map (fun _ _ h => h) (h5 i j)
theorem ERel.eq_map {f : K → K'} {ρ : CEnv K} {ρ' : CEnv K'} (h : ERel (fun x y => f x = y) ρ ρ') :
    ρ.map f = ρ' := by
  cases ρ; cases ρ'
  obtain ⟨h1, h2⟩ := h
  unfold CEnv.map
  congr 1
  · funext i; exact rel_eq_map (fun _ _ h => h.eq_map) (h1 i)
  · funext i; exact rel_eq_map (fun _ _ h => h.eq_map) (h2 i)

/-- the operations of the element types commute with `f` -/
structure Hom [Zero K] [One K] [Add K] [Sub K] [Mul K] [Div K] [Neg K]
    [Zero K'] [One K'] [Add K'] [Sub K'] [Mul K'] [Div K'] [Neg K'] (f : K → K') : Prop where
  zero : f 0 = 0
  one : f 1 = 1
  add : ∀ x y, f (x + y) = f x + f y
  sub : ∀ x y, f (x - y) = f x - f y
  mul : ∀ x y, f (x * y) = f x * f y
  div : ∀ x y, f (x / y) = f x / f y
  neg : ∀ x, f (-x) = -f x

section hom
variable [Zero K] [One K] [Add K] [Sub K] [Mul K] [Div K] [Neg K]
  [Zero K'] [One K'] [Add K'] [Sub K'] [Mul K'] [Div K'] [Neg K']

theorem Hom.respects {f : K → K'} (h : Hom f) : Respects (fun x y => f x = y) where
  zero := h.zero
  one := h.one
  add := by rintro x _ y _ rfl rfl; exact h.add x y
  sub := by rintro x _ y _ rfl rfl; exact h.sub x y
  mul := by rintro x _ y _ rfl rfl; exact h.mul x y
  div := by rintro x _ y _ rfl rfl; exact h.div x y
  neg := by rintro x _ rfl; exact h.neg x

/-- **C67** (homomorphisms) Converting the data and then running a program is the same as running it and
converting the results, if the conversion commutes with the arithmetic (`float` to `double` does not,
integers to rationals without division, rationals to reals, reals to complex numbers do). -/
theorem c67_hom {f : K → K'} (h : Hom f) (ρ : CEnv K) (p : List (Stmt K)) :
    execP (ρ.map f) (p.map (Stmt.map f)) = (execP ρ p).map (CEnv.map f) := by
  have := c67_prog h.respects (f := f) (fun _ => rfl) (ERel.of_map f ρ) p
  revert this
  generalize execP ρ p = o, execP (ρ.map f) (p.map (Stmt.map f)) = o'
  intro this
  cases this with
  | ok h => exact congrArg Result.ok h.eq_map.symm
  | abort => rfl
  | ub => rfl
  | compileError => rfl

theorem c67_hom_expr {f : K → K'} (h : Hom f) (ρ : CEnv K) {k : Knd} (e : Ex K k) :
    exec (ρ.map f) (e.map f) = (exec ρ e).map (CVal.map f) := by
  have := c67_expr h.respects (f := f) (fun _ => rfl) (ERel.of_map f ρ) e
  revert this
  generalize exec ρ e = o, exec (ρ.map f) (e.map f) = o'
  intro this
  cases this with
  | ok h =>
    refine congrArg Result.ok ?_
    cases k with
    | s => exact h.symm
    | v => exact (VRel.eq_map h).symm
    | m => exact (MRel.eq_map h).symm
  | abort => rfl
  | ub => rfl
  | compileError => rfl

end hom

/-- field homomorphisms qualify -/
theorem hom_of_field {K K' : Type} [Field K] [Field K'] (f : K →+* K') : Hom f :=
  ⟨map_zero f, map_one f, map_add f, map_sub f, map_mul f, map_div₀ f, map_neg f⟩

/-- Rational data and its image in the reals. -/
example (ρ : CEnv ℚ) (p : List (Stmt ℚ)) :
    execP (ρ.map (Rat.castHom ℝ)) (p.map (Stmt.map (Rat.castHom ℝ))) =
      (execP ρ p).map (CEnv.map (Rat.castHom ℝ)) := c67_hom (hom_of_field _) ρ p

theorem sameSizes_map (g : K → K') (ρ : CEnv K) : SameSizes (ρ.map g) ρ := by
  have ho : ∀ o : Option K, Option.Rel (AnyRel : K' → K → Prop) (o.map g) o := by
    intro o
    cases o with
    | none => exact .none
    | some x => exact .some trivial
  refine ⟨fun i => ?_, fun i => ?_⟩
  · unfold CEnv.map; dsimp only
    cases ρ.v i with
    | none => exact .none
    | some b => exact .some ⟨rfl, rfl, fun _ => ho _⟩
  · unfold CEnv.map; dsimp only
    cases ρ.m i with
    | none => exact .none
    | some b => exact .some ⟨rfl, rfl, rfl, rfl, fun _ _ => ho _⟩

/-- `m0.T()[1] += v2; v2 = v0; Vector<> v3(m0 * v2);` on `double` data of the sizes of C66's example,
whatever the elements: never undefined, never rejected. -/
example (g : ℚ → Fl Rounding.double) :
    execP (exRho.map g) [exS1.map g, exS2.map g, exS3.map g] ≠ .ub ∧
    ¬ (execP (exRho.map g) [exS1.map g, exS2.map g, exS3.map g] = .compileError ∨
      execP (exRho.map g) [exS1.map g, exS2.map g, exS3.map g] = .abort) := by
  have e : [exS1.map g, exS2.map g, exS3.map g].map (Stmt.map fun _ => (0 : ℚ)) = [exS1, exS2, exS3] := rfl
  refine ⟨c67_safe exRep (sameSizes_map g exRho) (fun _ => 0) _ (by rw [e]; exact exAvoids), ?_⟩
  rw [← c67_reject exRep (sameSizes_map g exRho) (fun _ => 0) _ (by rw [e]; exact exAvoids), e]
  intro h
  exact h _ (.cons exStep1 (.cons exStep2 (.cons exStep3 .nil)))

/-! ### Values that may be undefined -/

/-- `none`: nothing is known about the value (e.g. after a division by zero) -/
structure Chk (α : Type) where
  get : Option α

section chk
variable {α : Type}
/-- strict binary operation -/
def Chk.bin (g : α → α → Option α) (x y : Chk α) : Chk α := ⟨x.get.bind fun a => y.get.bind fun b => g a b⟩
def Chk.un (g : α → α) (x : Chk α) : Chk α := ⟨x.get.map g⟩
end chk

/-! ### Automatic differentiation -/
noncomputable section ad
open Classical Fad

variable {D : Nat}
/-- quotient of forward-mode numbers: `(a/b, (a' - (a/b) b')/b)` -/
def fdiv (x y : F D) : F D := mk (val x / val y) ((val y)⁻¹ • (deriv x - (val x / val y) • deriv y))

/-- FADBAD's `F<double, D>`, with the result of a division by zero marked -/
abbrev CF (D : Nat) := Chk (F D)
instance : Zero (CF D) := ⟨⟨some 0⟩⟩
instance : One (CF D) := ⟨⟨some 1⟩⟩
instance : Add (CF D) := ⟨Chk.bin fun a b => some (a + b)⟩
instance : Sub (CF D) := ⟨Chk.bin fun a b => some (a - b)⟩
instance : Mul (CF D) := ⟨Chk.bin fun a b => some (a * b)⟩
instance : Div (CF D) := ⟨Chk.bin fun a b => if val b = 0 then none else some (fdiv a b)⟩
instance : Neg (CF D) := ⟨Chk.un fun a => -a⟩

/-- real numbers with the result of a division by zero marked -/
structure CR where
  get : Option ℝ
instance : Zero CR := ⟨⟨some 0⟩⟩
instance : One CR := ⟨⟨some 1⟩⟩
instance : Add CR := ⟨fun x y => ⟨x.get.bind fun a => y.get.bind fun b => some (a + b)⟩⟩
instance : Sub CR := ⟨fun x y => ⟨x.get.bind fun a => y.get.bind fun b => some (a - b)⟩⟩
instance : Mul CR := ⟨fun x y => ⟨x.get.bind fun a => y.get.bind fun b => some (a * b)⟩⟩
instance : Div CR := ⟨fun x y => ⟨x.get.bind fun a => y.get.bind fun b =>
  if b = 0 then none else some (a / b)⟩⟩
instance : Neg CR := ⟨fun x => ⟨x.get.map fun a => -a⟩⟩

/-- functions of `D` real variables -/
abbrev Fun (D : Nat) := (Fin D → ℝ) → ℝ

/-- `x`, unless marked, holds the value and the derivatives of `g` at `p` -/
def Diff (p : Fin D → ℝ) (g : Fun D) (x : CF D) : Prop := ∀ y, x.get = some y → Represents y g p

theorem Represents.div {p : Fin D → ℝ} {x y : F D} {f g : Fun D} (h : Represents x f p)
    (k : Represents y g p) (h0 : val y ≠ 0) : Represents (fdiv x y) (fun e => f e / g e) p := by
  have hx : val x = f p := h.1
  have hy : val y = g p := k.1
  rw [hy] at h0
  unfold fdiv
  refine ⟨by rw [val_mk, hx, hy], ?_⟩
  rw [deriv_mk, hx, hy]
  have := h.2.mul ((hasDerivAt_inv h0).comp_hasFDerivAt p k.2)
  refine (this.congr_fderiv ?_).congr_of_eventuallyEq (Filter.Eventually.of_forall fun e => ?_)
  · ext e
    simp only [form_apply, _root_.add_apply, _root_.smul_apply, smul_eq_mul, Pi.smul_apply, Pi.sub_apply,
      Function.comp_apply]
    rw [Finset.mul_sum, Finset.mul_sum, Finset.mul_sum, ← Finset.sum_add_distrib]
    refine Finset.sum_congr rfl fun d _ => ?_
    field_simp
    ring
  · simp [div_eq_mul_inv]

theorem diff_respects (p : Fin D → ℝ) : Respects (Diff p) where
  zero := by
    intro y hy
    obtain rfl : 0 = y := by injection hy
    exact (by simpa [Fad.const] using Represents.const (D := D) (p := p) 0 : Represents (0 : F D) (fun _ => (0:ℝ)) p)
  one := by
    intro y hy
    obtain rfl : 1 = y := by injection hy
    exact (by simpa [Fad.const] using Represents.const (D := D) (p := p) 1 : Represents (1 : F D) (fun _ => (1:ℝ)) p)
  add := by
    rintro f ⟨_ | a⟩ g ⟨_ | b⟩ h k y hy <;> cases hy
    exact (h _ rfl).add (k _ rfl)
  sub := by
    rintro f ⟨_ | a⟩ g ⟨_ | b⟩ h k y hy <;> cases hy
    exact (h _ rfl).sub (k _ rfl)
  mul := by
    rintro f ⟨_ | a⟩ g ⟨_ | b⟩ h k y hy <;> cases hy
    exact (h _ rfl).mul (k _ rfl)
  div := by
    rintro f ⟨_ | a⟩ g ⟨_ | b⟩ h k y hy <;> try cases hy
    have hy' : (if val b = 0 then none else some (fdiv a b)) = some y := hy
    split at hy'
    · cases hy'
    · rename_i hb
      cases hy'
      exact Represents.div (h _ rfl) (k _ rfl) hb
  neg := by
    rintro f ⟨_ | a⟩ h y hy <;> cases hy
    exact (h _ rfl).neg

theorem at_hom (e : Fin D → ℝ) : Hom (fun g : Fun D => g e) :=
  ⟨rfl, rfl, fun _ _ => rfl, fun _ _ => rfl, fun _ _ => rfl, fun _ _ => rfl, fun _ => rfl⟩

theorem Ex.map_map {K K' K'' : Type} (f : K → K') (g : K' → K'') : {k : Knd} → (e : Ex K k) →
    (e.map f).map g = e.map (g ∘ f)
  | _, .lit _ => rfl
  | _, .dot a b => by simp only [Ex.map, Ex.map_map f g a, Ex.map_map f g b]
  | _, .idx a _ => by simp only [Ex.map, Ex.map_map f g a]
  | _, .el a _ _ => by simp only [Ex.map, Ex.map_map f g a]
  | _, .varV _ => rfl
  | _, .onesV _ _ a => by simp only [Ex.map, Ex.map_map f g a]
  | _, .convV _ a => by simp only [Ex.map, Ex.map_map f g a]
  | _, .binV _ a b => by simp only [Ex.map, Ex.map_map f g a, Ex.map_map f g b]
  | _, .negV a => by simp only [Ex.map, Ex.map_map f g a]
  | _, .scaV _ a b => by simp only [Ex.map, Ex.map_map f g a, Ex.map_map f g b]
  | _, .onesOpV _ a b => by simp only [Ex.map, Ex.map_map f g a, Ex.map_map f g b]
  | _, .cross a b => by simp only [Ex.map, Ex.map_map f g a, Ex.map_map f g b]
  | _, .mulMV a b => by simp only [Ex.map, Ex.map_map f g a, Ex.map_map f g b]
  | _, .mulVM a b => by simp only [Ex.map, Ex.map_map f g a, Ex.map_map f g b]
  | _, .diagMulV a b => by simp only [Ex.map, Ex.map_map f g a, Ex.map_map f g b]
  | _, .sliceV a _ _ => by simp only [Ex.map, Ex.map_map f g a]
  | _, .row a _ => by simp only [Ex.map, Ex.map_map f g a]
  | _, .diagS a => by simp only [Ex.map, Ex.map_map f g a]
  | _, .varM _ => rfl
  | _, .onesM _ _ _ _ a => by simp only [Ex.map, Ex.map_map f g a]
  | _, .identM _ _ _ a => by simp only [Ex.map, Ex.map_map f g a]
  | _, .convM _ _ a => by simp only [Ex.map, Ex.map_map f g a]
  | _, .binM _ a b => by simp only [Ex.map, Ex.map_map f g a, Ex.map_map f g b]
  | _, .negM a => by simp only [Ex.map, Ex.map_map f g a]
  | _, .scaM _ a b => by simp only [Ex.map, Ex.map_map f g a, Ex.map_map f g b]
  | _, .onesOpM _ a b => by simp only [Ex.map, Ex.map_map f g a, Ex.map_map f g b]
  | _, .identOpM _ a b => by simp only [Ex.map, Ex.map_map f g a, Ex.map_map f g b]
  | _, .mulMM a b => by simp only [Ex.map, Ex.map_map f g a, Ex.map_map f g b]
  | _, .mulMD a b => by simp only [Ex.map, Ex.map_map f g a, Ex.map_map f g b]
  | _, .mulDM a b => by simp only [Ex.map, Ex.map_map f g a, Ex.map_map f g b]
  | _, .transp a => by simp only [Ex.map, Ex.map_map f g a]
  | _, .sliceM a _ _ _ _ => by simp only [Ex.map, Ex.map_map f g a]
  | _, .asCol a => by simp only [Ex.map, Ex.map_map f g a]
  | _, .asRow a => by simp only [Ex.map, Ex.map_map f g a]

theorem Rhs.map_map {K K' K'' : Type} (f : K → K') (g : K' → K'') {k : Knd} (r : Rhs K k) :
    (r.map f).map g = r.map (g ∘ f) := by
  cases r <;> simp only [Rhs.map, Ex.map_map]
theorem Stmt.map_map {K K' K'' : Type} (f : K → K') (g : K' → K'') (s : Stmt K) :
    (s.map f).map g = s.map (g ∘ f) := by
  cases s <;> simp only [Stmt.map, Ex.map_map, Rhs.map_map]
theorem Ex.map_id {K : Type} {k : Knd} (e : Ex K k) : e.map id = e := by
  induction e <;> simp_all only [Ex.map, id]
theorem Rhs.map_id {K : Type} {k : Knd} (r : Rhs K k) : r.map id = r := by
  cases r <;> simp only [Rhs.map, Ex.map_id]
theorem Stmt.map_id {K : Type} (s : Stmt K) : s.map id = s := by
  cases s <;> simp only [Stmt.map, Ex.map_id, Rhs.map_id]
theorem prog_map_map {K K' K'' : Type} (f : K → K') (g : K' → K'') (p : List (Stmt K)) :
    (p.map (Stmt.map f)).map (Stmt.map g) = p.map (Stmt.map (g ∘ f)) := by
  rw [List.map_map]
  exact List.map_congr_left fun s _ => Stmt.map_map f g s
theorem prog_map_id {K : Type} (p : List (Stmt K)) : p.map (Stmt.map id) = p := by
  rw [show (Stmt.map id : Stmt K → Stmt K) = id from funext Stmt.map_id]
  exact List.map_id p

/-- **C67** (automatic differentiation) Take a program and data depending on `D` real parameters, the
elements of all variables being functions of the parameters: `G`.  Run the program on FADBAD numbers that
hold the values and derivatives of the data at a point `p`.  Then the real runs, for every value `e` of
the parameters, meet the same fate; if they finish, then with results that are functions `G'` of the
parameters, and every element of the FADBAD result that involves no division by zero holds the value and
all partial derivatives, at `p`, of the corresponding element of `G'`. -/
theorem c67_autodiff (p : Fin D → ℝ) (G : CEnv (Fun D)) (ρ : CEnv (CF D)) (h : ERel (Diff p) G ρ)
    (prog : List (Stmt ℝ)) :
    ∃ r : Result (CEnv (Fun D)),
      (∀ e, execP (G.map fun g => g e) prog = r.map (CEnv.map fun g => g e)) ∧
      ResRel (ERel (Diff p)) r (execP ρ (prog.map (Stmt.map fun x => ⟨some (Fad.const x)⟩))) := by
  refine ⟨execP G (prog.map (Stmt.map fun x _ => x)), fun e => ?_, ?_⟩
  · rw [← c67_hom (at_hom e), prog_map_map]
    congr 1
    exact (prog_map_id prog).symm
  · let f : Fun D → CF D := fun g => if ∃ c, g = fun _ => c then ⟨some (Fad.const (g 0))⟩ else ⟨none⟩
    have hf : ∀ g, Diff p g (f g) := by
      intro g y hy
      have hy' : (if ∃ c, g = fun _ => c then (⟨some (Fad.const (g 0))⟩ : CF D) else ⟨none⟩).get = some y := hy
      split at hy'
      · rename_i hc
        obtain ⟨c, rfl⟩ := hc
        cases hy'
        exact Represents.const c
      · cases hy'
    have := c67_prog (diff_respects p) hf h (prog.map (Stmt.map fun x _ => x))
    rw [prog_map_map] at this
    have e : f ∘ (fun (x : ℝ) (_ : Fin D → ℝ) => x) = fun x => ⟨some (Fad.const x)⟩ := by
      funext x
      exact if_pos ⟨x, rfl⟩
    rw [e] at this
    exact this

/-- `x` is marked exactly if `y` is, and otherwise has the value `y` -/
def ValIs (y : CR) (x : CF D) : Prop := y.get = x.get.map val

theorem valIs_respects : Respects (ValIs : CR → CF D → Prop) where
  zero := by show some (0:ℝ) = some (val (0 : F D)); rw [val_zero]
  one := by show some (1:ℝ) = some (val (1 : F D)); rw [val_one]
  add := by
    rintro ⟨a⟩ ⟨x⟩ ⟨b⟩ ⟨y⟩ h k
    obtain rfl : a = x.map val := h
    obtain rfl : b = y.map val := k
    rcases x with _ | x <;> rcases y with _ | y <;> try rfl
  sub := by
    rintro ⟨a⟩ ⟨x⟩ ⟨b⟩ ⟨y⟩ h k
    obtain rfl : a = x.map val := h
    obtain rfl : b = y.map val := k
    rcases x with _ | x <;> rcases y with _ | y <;> try rfl
  mul := by
    rintro ⟨a⟩ ⟨x⟩ ⟨b⟩ ⟨y⟩ h k
    obtain rfl : a = x.map val := h
    obtain rfl : b = y.map val := k
    rcases x with _ | x <;> rcases y with _ | y <;> try rfl
  div := by
    rintro ⟨a⟩ ⟨x⟩ ⟨b⟩ ⟨y⟩ h k
    obtain rfl : a = x.map val := h
    obtain rfl : b = y.map val := k
    rcases x with _ | x <;> rcases y with _ | y <;> try rfl
    show (if val y = 0 then none else some (val x / val y)) =
      Option.map val (if val y = 0 then none else some (fdiv x y))
    split
    · rfl
    · exact congrArg some (by unfold fdiv; rw [val_mk])
  neg := by
    rintro ⟨a⟩ ⟨x⟩ h
    obtain rfl : a = x.map val := h
    rcases x with _ | x <;> try rfl

/-- **C67** (… where the derivatives are available) An element of the FADBAD result is marked exactly if
the corresponding element of the real result at `p` depends on a division by zero. -/
theorem c67_autodiff_defined (ρ₀ : CEnv CR) (ρ : CEnv (CF D)) (h : ERel ValIs ρ₀ ρ)
    (prog : List (Stmt ℝ)) :
    ResRel (ERel ValIs) (execP ρ₀ (prog.map (Stmt.map fun x => ⟨some x⟩)))
      (execP ρ (prog.map (Stmt.map fun x => ⟨some (Fad.const x)⟩))) := by
  have := c67_prog valIs_respects (f := fun y : CR => (⟨y.get.map Fad.const⟩ : CF D)) (fun y => ?_) h
    (prog.map (Stmt.map fun x => ⟨some x⟩))
  · rw [prog_map_map] at this
    exact this
  · rcases y with ⟨_ | y⟩
    · rfl
    · exact congrArg some (val_const y).symm

/-- `v0 = (x, 3)` with `x` the only parameter, at `x = 2`. -/
def exG : CEnv (Fun 1) := ⟨fun i => if i = 0 then some ⟨2, 2, fun i => if i = 0 then some (fun e => e 0)
  else if i = 1 then some (fun _ => 3) else none⟩ else none, fun _ => none⟩
def exCF : CEnv (CF 1) := ⟨fun i => if i = 0 then some ⟨2, 2, fun i => if i = 0 then
  some ⟨some (Fad.diff (Fad.const 2) 0)⟩ else if i = 1 then some ⟨some (Fad.const 3)⟩ else none⟩ else none, fun _ => none⟩

theorem exG_rel : ERel (Diff (fun _ => 2)) exG exCF := by
  refine ⟨fun i => ?_, fun i => .none⟩
  unfold exG exCF
  dsimp only
  split
  · refine .some ⟨rfl, rfl, fun i => ?_⟩
    dsimp only
    split
    · refine .some ?_
      rintro y ⟨⟩
      exact rep_var (D := 1) 2 0 rfl
    · split
      · refine .some ?_
        rintro y ⟨⟩
        exact Represents.const 3
      · exact .none
  · exact .none

/-- `v0 *= v0 * v0`: the FADBAD run yields the derivatives of `x (x² + 9)` at 2. -/
example : ∃ ρ' : CEnv (CF 1),
    execP exCF [Stmt.asg (.varV 0) (.scaV .mul (.dot (.varV 0) (.varV 0)))] = .ok ρ' ∧
    ∃ y, (ρ'.read (.v 0) (0, 0)) = .ok ⟨some y⟩ ∧ Represents y (fun e => e 0 * (0 + e 0 * e 0 + 3 * 3)) (fun _ => 2) := by
  refine ⟨_, rfl, _, rfl, ?_⟩
  have hx := rep_var (D := 1) (p := fun _ => 2) 2 0 rfl
  have h3 := Represents.const (D := 1) (p := fun _ => 2) 3
  have h0 : Represents (0 : F 1) (fun _ => (0:ℝ)) (fun _ => 2) := by
    simpa [Fad.const] using Represents.const (D := 1) (p := fun _ => 2) 0
  exact hx.mul ((h0.add (hx.mul hx)).add (h3.mul h3))

end ad

/-! ### Exact floating-point results -/
noncomputable section exact
open Classical
variable {ρ : Rounding}

/-- real numbers, with results that are not representable marked -/
structure XR (ρ : Rounding) where
  get : Option ℝ
/-- `x` if it is representable -/
def xr (ρ : Rounding) (x : ℝ) : Option ℝ := if ρ.rnd x = x then some x else none
instance : Zero (XR ρ) := ⟨⟨some 0⟩⟩
instance : One (XR ρ) := ⟨⟨some 1⟩⟩
instance : Add (XR ρ) := ⟨fun x y => ⟨x.get.bind fun a => y.get.bind fun b => xr ρ (a + b)⟩⟩
instance : Sub (XR ρ) := ⟨fun x y => ⟨x.get.bind fun a => y.get.bind fun b => xr ρ (a - b)⟩⟩
instance : Mul (XR ρ) := ⟨fun x y => ⟨x.get.bind fun a => y.get.bind fun b => xr ρ (a * b)⟩⟩
instance : Div (XR ρ) := ⟨fun x y => ⟨x.get.bind fun a => y.get.bind fun b => xr ρ (a / b)⟩⟩
instance : Neg (XR ρ) := ⟨fun x => ⟨x.get.map fun a => -a⟩⟩

theorem xr_some {x v : ℝ} (h : xr ρ x = some v) : ρ.rnd x = x ∧ v = x := by
  unfold xr at h
  split at h
  · rename_i hx
    exact ⟨hx, by injection h with h; exact h.symm⟩
  · cases h

/-- unless marked, the floating-point number is the exact result -/
def FlIs (x : Fl ρ) (y : XR ρ) : Prop := ∀ v, y.get = some v → x.val = v
/-- unless marked, the real number is the exact result -/
def ReIs (y : XR ρ) (z : ℝ) : Prop := ∀ v, y.get = some v → z = v

theorem flIs_op {x y : Fl ρ} {a b : XR ρ} (h : FlIs x a) (k : FlIs y b) (g : ℝ → ℝ → ℝ) (z : Fl ρ)
    (hz : z.val = ρ.rnd (g x.val y.val)) :
    FlIs z ⟨a.get.bind fun a => b.get.bind fun b => xr ρ (g a b)⟩ := by
  rcases a with ⟨_ | a⟩ <;> rcases b with ⟨_ | b⟩ <;> intro v hv <;> try cases hv
  have hv' : xr ρ (g a b) = some v := hv
  obtain ⟨h1, rfl⟩ := xr_some hv'
  rw [hz, h a rfl, k b rfl, h1]
theorem reIs_op {x y : ℝ} {a b : XR ρ} (h : ReIs a x) (k : ReIs b y) (g : ℝ → ℝ → ℝ) :
    ReIs (ρ := ρ) ⟨a.get.bind fun a => b.get.bind fun b => xr ρ (g a b)⟩ (g x y) := by
  rcases a with ⟨_ | a⟩ <;> rcases b with ⟨_ | b⟩ <;> intro v hv <;> try cases hv
  have hv' : xr ρ (g a b) = some v := hv
  obtain ⟨h1, rfl⟩ := xr_some hv'
  rw [h a rfl, k b rfl]

theorem flIs_respects : Respects (FlIs (ρ := ρ)) where
  zero := by rintro v ⟨⟩; rfl
  one := by rintro v ⟨⟩; rfl
  add := fun h k => flIs_op h k (· + ·) _ rfl
  sub := fun h k => flIs_op h k (· - ·) _ rfl
  mul := fun h k => flIs_op h k (· * ·) _ rfl
  div := fun h k => flIs_op h k (· / ·) _ rfl
  neg := by
    rintro x ⟨_ | a⟩ h v hv <;> cases hv
    rw [Fl.val_neg, h a rfl]
theorem reIs_respects : Respects (ReIs (ρ := ρ)) where
  zero := by rintro v ⟨⟩; rfl
  one := by rintro v ⟨⟩; rfl
  add := fun h k => reIs_op h k (· + ·)
  sub := fun h k => reIs_op h k (· - ·)
  mul := fun h k => reIs_op h k (· * ·)
  div := fun h k => reIs_op h k (· / ·)
  neg := by
    rintro ⟨_ | a⟩ x h v hv <;> cases hv
    rw [h a rfl]

/-- the exact values of floating-point data, with nothing marked -/
def toXR (ρF : CEnv (Fl ρ)) : CEnv (XR ρ) := ρF.map fun x => ⟨some x.val⟩
/-- the real values of floating-point data -/
def toR (ρF : CEnv (Fl ρ)) : CEnv ℝ := ρF.map Fl.val

theorem flIs_of_map {α β : Type} {f : α → β} {P : α → β → Prop} (hP : ∀ x, P x (f x)) (ρ : CEnv α) :
    ERel P ρ (ρ.map f) := by
  have h := ERel.of_map f ρ
  have ho : ∀ (o : Option α) (o' : Option β), Option.Rel (fun x y => f x = y) o o' → Option.Rel P o o' := by
    rintro _ _ (h | _)
    · subst h; exact .some (hP _)
    · exact .none
  refine ⟨fun i => ?_, fun i => ?_⟩
  · have := h.v i
    generalize ρ.v i = o, (ρ.map f).v i = o' at this
    cases this with
    | none => exact .none
    | some h => exact .some ⟨h.S, h.n, fun i => ho _ _ (h.cell i)⟩
  · have := h.m i
    generalize ρ.m i = o, (ρ.map f).m i = o' at this
    cases this with
    | none => exact .none
    | some h => exact .some ⟨h.hR, h.hC, h.r, h.c, fun i j => ho _ _ (h.cell i j)⟩

/-- **C67** (exactness) Run a program in floating point, in exact arithmetic, and in exact arithmetic with
every result that is not representable marked.  The three runs meet the same fate, and every element that
is not marked at the end is the same in floating point and in exact arithmetic. -/
theorem c67_float_exact (ρF : CEnv (Fl ρ)) (prog : List (Stmt (Fl ρ))) :
    ResRel (ERel FlIs) (execP ρF prog) (execP (toXR ρF) (prog.map (Stmt.map fun x => ⟨some x.val⟩))) ∧
    ResRel (ERel ReIs) (execP (toXR ρF) (prog.map (Stmt.map fun x => ⟨some x.val⟩)))
      (execP (toR ρF) (prog.map (Stmt.map Fl.val))) := by
  constructor
  · exact c67_prog flIs_respects (by rintro x v ⟨⟩; rfl)
      (flIs_of_map (by rintro x v ⟨⟩; rfl) ρF) prog
  · have hg : ∀ y : XR ρ, ReIs y (y.get.getD 0) := by
      rintro ⟨_ | y⟩ v hv <;> cases hv
      rfl
    have := c67_prog reIs_respects hg (flIs_of_map hg (toXR ρF))
      (prog.map (Stmt.map fun x => ⟨some x.val⟩))
    rw [prog_map_map] at this
    have e : (toXR ρF).map (fun y => y.get.getD 0) = toR ρF := by
      unfold toXR toR CEnv.map
      dsimp only
      congr 1
      · funext i
        cases ρF.v i with
        | none => rfl
        | some b =>
          simp only [Option.map_some, VB.map, Option.map_map]
          rfl
      · funext i
        cases ρF.m i with
        | none => rfl
        | some b =>
          simp only [Option.map_some, MB.map, Option.map_map]
          rfl
    rw [e] at this
    exact this

/-- `v0 * v0` for `v0 = (3, 4)` is exactly 25 in single precision. -/
example : ∃ x : Fl Rounding.float, exec (K := Fl Rounding.float)
    ⟨fun i => if i = 0 then some ⟨2, 2, fun i => if i = 0 then some (Fl.of _ 3) else if i = 1 then some (Fl.of _ 4) else none⟩
      else none, fun _ => none⟩ (.dot (.varV 0) (.varV 0)) = .ok x ∧ x.val = 25 := by
  have hr : ∀ n : ℤ, |n| ≤ 2 ^ 24 → Rounding.float.rnd n = n := fun n hn =>
    rndNearest_int 24 (by norm_num) n hn
  refine ⟨_, rfl, ?_⟩
  have h3 := hr 3 (by norm_num)
  have h4 := hr 4 (by norm_num)
  have h9 := hr 9 (by norm_num)
  have h16 := hr 16 (by norm_num)
  have h25 := hr 25 (by norm_num)
  have h0 := hr 0 (by norm_num)
  push_cast at h3 h4 h9 h16 h25 h0
  simp only [Fl.val_add, Fl.val_mul, Fl.val_zero, Fl.of, h3, h4]
  norm_num [h9, h16, h25]

end exact
end TooN.Expr
