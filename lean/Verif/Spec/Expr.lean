import Mathlib.Data.Matrix.Mul
import Mathlib.Data.Matrix.Diagonal
import Mathlib.LinearAlgebra.CrossProduct
/-!
# Vector/matrix expressions and what they mean mathematically

The abstract syntax of the expressions a user can write with TooN's `Vector` and `Matrix`, and their
meaning in terms of Mathlib vectors and matrices.  `Den σ e x` ("in the environment `σ` the expression
`e` makes sense mathematically and has the value `x`") mentions sizes only through the types of the
operands: e.g. a sum has a value only if both operands have a value in the same space.

Nothing here refers to TooN's implementation.
-/
namespace TooN.Expr
open Matrix

/-- Sorts of expressions: scalar, vector, matrix. -/
inductive Knd | s | v | m
  deriving DecidableEq

/-- A size as it appears in a type: `Vector<n>`, `Vector<Dynamic>`, `Vector<Resizable>`. -/
inductive Sz | st (n : Nat) | dyn | rsz
  deriving DecidableEq, Repr

/-- Values with their sizes. -/
inductive Val (K : Type) : Knd → Type
  | s (x : K) : Val K .s
  | v {n : Nat} (x : Fin n → K) : Val K .v
  | m {r c : Nat} (X : Matrix (Fin r) (Fin c) K) : Val K .m

inductive BinV | add | sub | diagmult
inductive BinM | add | sub
/-- `x * s`, `x / s`, `s * x` -/
inductive Sca | mul | div | lmul
/-- `x + Op*s`, `x - Op*s`, `Op*s - x` for `Op` = `Ones`, `Identity` -/
inductive Mode | add | rsub | lsub

/-- Expressions. -/
inductive Ex (K : Type) : Knd → Type
  | lit (x : K) : Ex K .s
  /-- `a * b` -/
  | dot (a b : Ex K .v) : Ex K .s
  /-- `a[i]` -/
  | idx (a : Ex K .v) (i : Int) : Ex K .s
  /-- `A(i,j)` -/
  | el (A : Ex K .m) (i j : Int) : Ex K .s
  | varV (i : Nat) : Ex K .v
  /-- `Vector<S>(Ones(n) * s)` -/
  | onesV (S : Sz) (n : Nat) (s : Ex K .s) : Ex K .v
  /-- `Vector<S>(a)` -/
  | convV (S : Sz) (a : Ex K .v) : Ex K .v
  /-- `a + b`, `a - b`, `diagmult(a, b)` -/
  | binV (o : BinV) (a b : Ex K .v) : Ex K .v
  /-- `-a` -/
  | negV (a : Ex K .v) : Ex K .v
  | scaV (o : Sca) (a : Ex K .v) (s : Ex K .s) : Ex K .v
  /-- `a + Ones*s`, `a - Ones*s`, `Ones*s - a` -/
  | onesOpV (o : Mode) (a : Ex K .v) (s : Ex K .s) : Ex K .v
  /-- `a ^ b` -/
  | cross (a b : Ex K .v) : Ex K .v
  /-- `A * a` -/
  | mulMV (A : Ex K .m) (a : Ex K .v) : Ex K .v
  /-- `a * A` -/
  | mulVM (a : Ex K .v) (A : Ex K .m) : Ex K .v
  /-- `DiagonalMatrix<…>(a) * b` -/
  | diagMulV (a b : Ex K .v) : Ex K .v
  /-- `a.slice(start, length)` -/
  | sliceV (a : Ex K .v) (start length : Int) : Ex K .v
  /-- `A[i]` -/
  | row (A : Ex K .m) (i : Int) : Ex K .v
  /-- `A.diagonal_slice()` -/
  | diagS (A : Ex K .m) : Ex K .v
  | varM (i : Nat) : Ex K .m
  /-- `Matrix<R,C>(Ones(r,c) * s)` -/
  | onesM (R C : Sz) (r c : Nat) (s : Ex K .s) : Ex K .m
  /-- `Matrix<R,C>(Identity(n) * s)` -/
  | identM (R C : Sz) (n : Nat) (s : Ex K .s) : Ex K .m
  /-- `Matrix<R,C>(A)` -/
  | convM (R C : Sz) (A : Ex K .m) : Ex K .m
  /-- `A + B`, `A - B` -/
  | binM (o : BinM) (A B : Ex K .m) : Ex K .m
  /-- `-A` -/
  | negM (A : Ex K .m) : Ex K .m
  | scaM (o : Sca) (A : Ex K .m) (s : Ex K .s) : Ex K .m
  /-- `A + Ones*s`, … -/
  | onesOpM (o : Mode) (A : Ex K .m) (s : Ex K .s) : Ex K .m
  /-- `A + Identity*s`, … -/
  | identOpM (o : Mode) (A : Ex K .m) (s : Ex K .s) : Ex K .m
  /-- `A * B` -/
  | mulMM (A B : Ex K .m) : Ex K .m
  /-- `A * DiagonalMatrix<…>(a)`, `diagmult(A, a)` -/
  | mulMD (A : Ex K .m) (a : Ex K .v) : Ex K .m
  /-- `DiagonalMatrix<…>(a) * A`, `diagmult(a, A)` -/
  | mulDM (a : Ex K .v) (A : Ex K .m) : Ex K .m
  /-- `A.T()` -/
  | transp (A : Ex K .m) : Ex K .m
  /-- `A.slice(rs, cs, rl, cl)` -/
  | sliceM (A : Ex K .m) (rs cs rl cl : Int) : Ex K .m
  /-- `a.as_col()` -/
  | asCol (a : Ex K .v) : Ex K .m
  /-- `a.as_row()` -/
  | asRow (a : Ex K .v) : Ex K .m

/-- An object of declared size `S` can hold `n` elements.  Static sizes are positive; a resizable
vector must not be empty (C07). -/
def Sz.Accepts : Sz → Nat → Prop
  | .st k, n => 0 < k ∧ n = k
  | .dyn, _ => True
  | .rsz, n => n ≠ 0

/-- As a size of a matrix (matrices are not resizable). -/
def Sz.AcceptsM : Sz → Nat → Prop
  | .st k, n => 0 < k ∧ n = k
  | .dyn, _ => True
  | .rsz, _ => False

/-- The size of `Vector<S>(Ones(n))`: a static size takes precedence. -/
def Sz.sizeFor : Sz → Nat → Nat
  | .st k, _ => k
  | _, n => n

/-- Variables: declared size(s) and current value. -/
structure SEnv (K : Type) where
  v : Nat → Option (Sz × Val K .v)
  m : Nat → Option ((Sz × Sz) × Val K .m)

variable {K : Type} [Field K]

def binV : BinV → {n : Nat} → (Fin n → K) → (Fin n → K) → Fin n → K
  | .add, _, x, y => x + y
  | .sub, _, x, y => x - y
  | .diagmult, _, x, y => x * y

def binM : BinM → {r c : Nat} → Matrix (Fin r) (Fin c) K → Matrix (Fin r) (Fin c) K →
    Matrix (Fin r) (Fin c) K
  | .add, _, _, x, y => x + y
  | .sub, _, _, x, y => x - y

def sca : Sca → K → K → K
  | .mul, x, k => x * k
  | .div, x, k => x / k
  | .lmul, x, k => k * x

/-- adding `s` times the object `o` (`Ones` or `Identity`) -/
def mode {E : Type} [AddCommGroup E] : Mode → E → E → E
  | .add, x, o => x + o
  | .rsub, x, o => x - o
  | .lsub, x, o => o - x

/-- The mathematical meaning. -/
inductive Den (σ : SEnv K) : {k : Knd} → Ex K k → Val K k → Prop
  | lit (x : K) : Den σ (.lit x) (.s x)
  | dot {a b n} {x y : Fin n → K} : Den σ a (.v x) → Den σ b (.v y) →
      Den σ (.dot a b) (.s (x ⬝ᵥ y))
  | idx {a n} {x : Fin n → K} {i : Int} {k : Nat} : Den σ a (.v x) → i = (k : Int) → (h : k < n) →
      Den σ (.idx a i) (.s (x ⟨k, h⟩))
  | el {A r c} {X : Matrix (Fin r) (Fin c) K} {i j : Int} {k l : Nat} : Den σ A (.m X) →
      i = (k : Int) → j = (l : Int) → (h : k < r) → (h' : l < c) →
      Den σ (.el A i j) (.s (X ⟨k, h⟩ ⟨l, h'⟩))
  | varV {i S n} {x : Fin n → K} : σ.v i = some (S, .v x) → Den σ (.varV i) (.v x)
  | onesV {S n s} {x : K} : Sz.Accepts S (S.sizeFor n) → Den σ s (.s x) →
      Den σ (.onesV S n s) (.v (fun _ : Fin (S.sizeFor n) => x))
  | convV {S a n} {x : Fin n → K} : Den σ a (.v x) → Sz.Accepts S n → Den σ (.convV S a) (.v x)
  | binV {o a b n} {x y : Fin n → K} : Den σ a (.v x) → Den σ b (.v y) →
      Den σ (.binV o a b) (.v (binV o x y))
  | negV {a n} {x : Fin n → K} : Den σ a (.v x) → Den σ (.negV a) (.v (-x))
  | scaV {o a s n} {x : Fin n → K} {k : K} : Den σ a (.v x) → Den σ s (.s k) →
      Den σ (.scaV o a s) (.v (fun i => sca o (x i) k))
  | onesOpV {o a s n} {x : Fin n → K} {k : K} : Den σ a (.v x) → Den σ s (.s k) →
      Den σ (.onesOpV o a s) (.v (mode o x (fun _ => k)))
  | cross {a b} {x y : Fin 3 → K} : Den σ a (.v x) → Den σ b (.v y) →
      Den σ (.cross a b) (.v (crossProduct x y))
  | mulMV {A a r c} {X : Matrix (Fin r) (Fin c) K} {y : Fin c → K} :
      Den σ A (.m X) → Den σ a (.v y) → Den σ (.mulMV A a) (.v (X *ᵥ y))
  | mulVM {A a r c} {X : Matrix (Fin r) (Fin c) K} {y : Fin r → K} :
      Den σ a (.v y) → Den σ A (.m X) → Den σ (.mulVM a A) (.v (y ᵥ* X))
  | diagMulV {a b n} {x y : Fin n → K} : Den σ a (.v x) → Den σ b (.v y) →
      Den σ (.diagMulV a b) (.v (diagonal x *ᵥ y))
  | sliceV {a start length} {n s l : Nat} {x : Fin n → K} : Den σ a (.v x) →
      start = (s : Int) → length = (l : Int) → (h : s + l ≤ n) →
      Den σ (.sliceV a start length) (.v (fun i : Fin l => x ⟨s + i, by omega⟩))
  | row {A r c} {X : Matrix (Fin r) (Fin c) K} {i : Int} {k : Nat} : Den σ A (.m X) →
      i = (k : Int) → (h : k < r) → Den σ (.row A i) (.v (X ⟨k, h⟩))
  | diagS {A r c} {X : Matrix (Fin r) (Fin c) K} : Den σ A (.m X) →
      Den σ (.diagS A) (.v (fun i : Fin (min r c) => X ⟨i, by omega⟩ ⟨i, by omega⟩))
  | varM {i S r c} {X : Matrix (Fin r) (Fin c) K} : σ.m i = some (S, .m X) → Den σ (.varM i) (.m X)
  | onesM {R C r c s} {x : K} : R.AcceptsM (R.sizeFor r) → C.AcceptsM (C.sizeFor c) →
      Den σ s (.s x) →
      Den σ (.onesM R C r c s) (.m (fun (_ : Fin (R.sizeFor r)) (_ : Fin (C.sizeFor c)) => x))
  | identM {R C n s k} {x : K} : R.AcceptsM k → C.AcceptsM k → R.sizeFor n = k →
      C.sizeFor n = k → Den σ s (.s x) →
      Den σ (.identM R C n s) (.m (x • (1 : Matrix (Fin k) (Fin k) K)))
  | convM {R C A r c} {X : Matrix (Fin r) (Fin c) K} : Den σ A (.m X) → R.AcceptsM r →
      C.AcceptsM c → Den σ (.convM R C A) (.m X)
  | binM {o A B r c} {X Y : Matrix (Fin r) (Fin c) K} : Den σ A (.m X) → Den σ B (.m Y) →
      Den σ (.binM o A B) (.m (binM o X Y))
  | negM {A r c} {X : Matrix (Fin r) (Fin c) K} : Den σ A (.m X) → Den σ (.negM A) (.m (-X))
  | scaM {o A s r c} {X : Matrix (Fin r) (Fin c) K} {k : K} : Den σ A (.m X) → Den σ s (.s k) →
      Den σ (.scaM o A s) (.m (fun i j => sca o (X i j) k))
  | onesOpM {o A s r c} {X : Matrix (Fin r) (Fin c) K} {k : K} : Den σ A (.m X) →
      Den σ s (.s k) → Den σ (.onesOpM o A s) (.m (mode o X (fun _ _ => k)))
  | identOpM {o A s n} {X : Matrix (Fin n) (Fin n) K} {k : K} : Den σ A (.m X) →
      Den σ s (.s k) → Den σ (.identOpM o A s) (.m (mode o X (k • 1)))
  | mulMM {A B r n c} {X : Matrix (Fin r) (Fin n) K} {Y : Matrix (Fin n) (Fin c) K} :
      Den σ A (.m X) → Den σ B (.m Y) → Den σ (.mulMM A B) (.m (X * Y))
  | mulMD {A a r c} {X : Matrix (Fin r) (Fin c) K} {y : Fin c → K} :
      Den σ A (.m X) → Den σ a (.v y) → Den σ (.mulMD A a) (.m (X * diagonal y))
  | mulDM {A a r c} {X : Matrix (Fin r) (Fin c) K} {y : Fin r → K} :
      Den σ a (.v y) → Den σ A (.m X) → Den σ (.mulDM a A) (.m (diagonal y * X))
  | transp {A r c} {X : Matrix (Fin r) (Fin c) K} : Den σ A (.m X) → Den σ (.transp A) (.m Xᵀ)
  | sliceM {A rs cs rl cl} {r c r0 c0 r1 c1 : Nat} {X : Matrix (Fin r) (Fin c) K} : Den σ A (.m X) →
      rs = (r0 : Int) → cs = (c0 : Int) → rl = (r1 : Int) → cl = (c1 : Int) →
      (h : r0 + r1 ≤ r) → (h' : c0 + c1 ≤ c) →
      Den σ (.sliceM A rs cs rl cl)
        (.m (fun (i : Fin r1) (j : Fin c1) => X ⟨r0 + i, by omega⟩ ⟨c0 + j, by omega⟩))
  | asCol {a n} {x : Fin n → K} : Den σ a (.v x) →
      Den σ (.asCol a) (.m (fun (i : Fin n) (_ : Fin 1) => x i))
  | asRow {a n} {x : Fin n → K} : Den σ a (.v x) →
      Den σ (.asRow a) (.m (fun (_ : Fin 1) (i : Fin n) => x i))

end TooN.Expr
