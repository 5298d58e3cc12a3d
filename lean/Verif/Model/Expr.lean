import Verif.Model.Checks
import Verif.Model.Typed
import Verif.Spec.Expr
/-!
# Evaluation of whole expressions, with sizes, checks and memory

`Model/Ops.lean` models the loops of `operators.hh`/`objects.h` on vectors of agreed sizes.  This file
models what happens *between* them when a user writes a nested expression: the template sizes of the
temporaries (`Sizer`), the size checks (`SizeMismatch`), the allocation of the results from the
operators' sizes, and every access of an element with its bounds.

An object is a buffer of `n` cells; a cell may be uninitialised.  Reading an uninitialised cell or
touching an index outside the buffer is undefined behaviour (`Outcome.ub`); matrices are buffers of
`r × c` cells (index arithmetic inside one buffer is C01/C02, so a column index beyond the last column
is counted as undefined although it may hit another cell of the same buffer).

Compilation is separate from execution: `comp` sees template parameters only.  Element arithmetic is any
type with the operations (a field for the values in C65, C66; anything, e.g. floating point, in C67);
division by zero is not singled out here (it is in the decompositions).  Lifetimes of the
temporaries are C06's subject: here an object is its contents.
-/
namespace TooN.Expr
open TooN.Checks (sizeMismatch sizer isStatic runtimeSize)

/-- The template parameter (TooN.h:284-285). -/
def Sz.toInt : Sz → Int
  | .st n => n
  | .dyn => Checks.Dynamic
  | .rsz => Checks.Resizable

variable {K : Type}

/-- A vector object: template parameter `SizeParameter` (vector.hh:133), run-time `size()`, cells. -/
structure VB (K : Type) where
  S : Int
  n : Nat
  cell : Nat → Option K

/-- A matrix object. -/
structure MB (K : Type) where
  R : Int
  C : Int
  r : Nat
  c : Nat
  cell : Nat → Nat → Option K

/-- `v[i]` as an rvalue (vbase.hh:162-170, default configuration: unchecked). -/
def VB.get (v : VB K) (i : Nat) : Outcome K :=
  if i < v.n then (match v.cell i with | some x => .ok x | none => .ub) else .ub
/-- `v[i] = x`. -/
def VB.set (v : VB K) (i : Nat) (x : K) : Outcome (VB K) :=
  if i < v.n then .ok { v with cell := fun j => if j = i then some x else v.cell j } else .ub
/-- `m(r,c)`, `m[r][c]` as an rvalue (mbase.hh:134-170). -/
def MB.get (m : MB K) (i j : Nat) : Outcome K :=
  if i < m.r ∧ j < m.c then (match m.cell i j with | some x => .ok x | none => .ub) else .ub
/-- `m(r,c) = x`. -/
def MB.set (m : MB K) (i j : Nat) (x : K) : Outcome (MB K) :=
  if i < m.r ∧ j < m.c then
    .ok { m with cell := fun i' j' => if i' = i ∧ j' = j then some x else m.cell i' j' }
  else .ub

/-- `for(int i=0; i<n; i++)` with an `Outcome`-valued body. -/
def forO {σ : Type _} : Nat → (Nat → σ → Outcome σ) → σ → Outcome σ
  | 0, _, s => .ok s
  | n+1, f, s => (forO n f s).bind (f n)

/-- `for(i<n) res[i] = f(i)`: the loop of the vector `eval`s. -/
def storeV (n : Nat) (f : Nat → Outcome K) (res : VB K) : Outcome (VB K) :=
  forO n (fun i res => (f i).bind fun x => res.set i x) res
/-- `for(i<r) for(j<c) res(i,j) = f(i,j)`. -/
def storeM (r c : Nat) (f : Nat → Nat → Outcome K) (res : MB K) : Outcome (MB K) :=
  forO r (fun i res => forO c (fun j res => (f i j).bind fun x => res.set i j x) res) res
/-- Run-time part of `SizeMismatch<S1,S2>::test(n1,n2)` (size_mismatch.hh:33-110). -/
def test (S1 S2 : Int) (n1 n2 : Nat) : Outcome Unit :=
  match sizeMismatch S1 S2 n1 n2 with
  | .ok => .ok ()
  | _ => .abort
/-- Static part: does the call compile? -/
def testC (S1 S2 : Int) : Bool := sizeMismatch S1 S2 0 0 != .compileError

/-- Uninitialised storage for a vector with template size `S` for an operator of size `n`
(allocator.hh:118-146 static: `n` is ignored; 205-216 dynamic; 282-293 resizable: `data()` is
`&numbers[0]`, undefined when empty).  `std::vector` zero-fills; here the cells count as
uninitialised. -/
def allocV (S : Int) (n : Nat) : Outcome (VB K) :=
  if S = Checks.Resizable ∧ n = 0 then .ub
  else .ok ⟨S, (runtimeSize S n).toNat, fun _ => none⟩
/-- Storage for a matrix (allocator.hh:502-620). -/
def allocM (R C : Int) (r c : Nat) : Outcome (MB K) :=
  .ok ⟨R, C, (runtimeSize R r).toNat, (runtimeSize C c).toNat, fun _ _ => none⟩

/-- `try_destructive_resize` (allocator.hh:171, 254, 349-353). -/
def tryResize (v : VB K) (n : Nat) : Outcome (VB K) :=
  if v.S = Checks.Resizable then
    (if n = 0 then .ub else
      .ok { v with n := n, cell := fun i => if i < v.n ∧ i < n then v.cell i else none })
  else .ok v

/-- `operator=` from a vector (vector.hh:263-286). -/
def assignV (v from_ : VB K) : Outcome (VB K) :=
  (tryResize v from_.n).bind fun v =>
  (test v.S from_.S v.n from_.n).bind fun _ => storeV v.n (fun i => from_.get i) v
/-- `operator=` from a matrix (matrix.hh:164-195). -/
def assignM (m from_ : MB K) : Outcome (MB K) :=
  (test m.R from_.R m.r from_.r).bind fun _ => (test m.C from_.C m.c from_.c).bind fun _ =>
  storeM m.r m.c (fun i j => from_.get i j) m

/-- Constructor from an arbitrary vector (vector.hh:221-226). -/
def convVB (S : Int) (a : VB K) : Outcome (VB K) := (allocV S a.n).bind fun v => assignV v a
/-- Constructor from an arbitrary matrix (matrix.hh:152-158). -/
def convMB (R C : Int) (A : MB K) : Outcome (MB K) := (allocM R C A.r A.c).bind fun m => assignM m A

/-- `m[r]` (mbase.hh:162-170). -/
def MB.row (m : MB K) (i : Nat) : Outcome (VB K) :=
  if i < m.r then .ok ⟨m.C, m.c, m.cell i⟩ else .ub
/-- `m.T()` (mbase.hh:228-235). -/
def MB.T (m : MB K) : MB K := ⟨m.C, m.R, m.c, m.r, fun i j => m.cell j i⟩

section ops
variable [Zero K] [One K] [Add K] [Sub K] [Mul K] [Div K] [Neg K]

def opV : BinV → K → K → K
  | .add => fun x y => x + y
  | .sub => fun x y => x - y
  | .diagmult => fun x y => x * y
def opM : BinM → K → K → K
  | .add => fun x y => x + y
  | .sub => fun x y => x - y

/-- `a+b`, `a-b`, `diagmult(a,b)` (operators.hh:136-177): check, construct
`Vector<Sizer<S1,S2>::size>` from the operator (whose size is `lhs.size()`), loop over
`res.size()`. -/
def vpairwise (o : BinV) (a b : VB K) : Outcome (VB K) :=
  (test a.S b.S a.n b.n).bind fun _ => (allocV (sizer a.S b.S) a.n).bind fun res =>
  storeV res.n (fun i => (a.get i).bind fun x => (b.get i).bind fun y => .ok (opV o x y)) res

/-- `v*s`, `v/s`, `s*v` (operators.hh:499-549). -/
def applyScalarV (o : Sca) (a : VB K) (s : K) : Outcome (VB K) :=
  (allocV a.S a.n).bind fun res =>
  storeV res.n (fun i => (a.get i).bind fun x => .ok (match o with
    | .mul => x * s | .div => x / s | .lmul => s * x)) res

/-- `-v` (operators.hh:179-196): `Vector<S>` constructed from the operator, whose `eval` is
`res = input * -1`. -/
def vnegate (a : VB K) : Outcome (VB K) :=
  (allocV a.S a.n).bind fun res => (applyScalarV .mul a (-1)).bind fun t => assignV res t

/-- dot product (operators.hh:198-208). -/
def dotB (a b : VB K) : Outcome K :=
  (test a.S b.S a.n b.n).bind fun _ =>
  forO a.n (fun i result => (a.get i).bind fun x => (b.get i).bind fun y => .ok (result + x * y)) 0

/-- `v1 ^ v2` (operators.hh:210-222); the operands are `Vector<3>`s (see `comp`). -/
def crossB (a b : VB K) : Outcome (VB K) :=
  (allocV 3 3).bind fun r =>
  (a.get 0).bind fun a0 => (a.get 1).bind fun a1 => (a.get 2).bind fun a2 =>
  (b.get 0).bind fun b0 => (b.get 1).bind fun b1 => (b.get 2).bind fun b2 =>
  (r.set 0 (a1 * b2 - a2 * b1)).bind fun r =>
  (r.set 1 (a2 * b0 - a0 * b2)).bind fun r =>
  r.set 2 (a0 * b1 - a1 * b0)

/-- `Vector<S>(Ones(n)*s)`: `SizedScalars` (objects.h:485-489, 602-631); the loop runs over
`v.size()`. -/
def onesVB (S : Int) (n : Nat) (s : K) : Outcome (VB K) :=
  (allocV S n).bind fun res => storeV res.n (fun _ => .ok s) res

/-- `v + Ones*s`, `v - Ones*s`, `Ones*s - v`: `ScalarsVector` (objects.h:386-410, 506-521,
operators.hh:617-664); the loop runs over the *operand's* size. -/
def scalarsV (o : Mode) (a : VB K) (s : K) : Outcome (VB K) :=
  (allocV a.S a.n).bind fun res =>
  storeV a.n (fun i => (a.get i).bind fun x => .ok (match o with
    | .add => s + x | .rsub => -s + x | .lsub => s - x)) res

/-- `m*v` (operators.hh:365-388): result `Vector<R>`, `res[i] = lhs[i] * rhs`. -/
def matVec (A : MB K) (a : VB K) : Outcome (VB K) :=
  (test A.C a.S A.c a.n).bind fun _ => (allocV A.R A.r).bind fun res =>
  storeV res.n (fun i => (A.row i).bind fun row => dotB row a) res

/-- `v*m` (operators.hh:390-414): result `Vector<C>`, `res[i] = lhs * rhs.T()[i]`. -/
def vecMat (a : VB K) (A : MB K) : Outcome (VB K) :=
  (test A.R a.S A.r a.n).bind fun _ => (allocV A.C A.c).bind fun res =>
  storeV res.n (fun i => (A.T.row i).bind fun col => dotB a col) res

/-- `DiagonalMatrix<S>(a) * b` (diagmatrix.h:130-136, 171-175): copy into `my_vector`, then
`diagmult(d.my_vector, b)`. -/
def diagVec (a b : VB K) : Outcome (VB K) :=
  (convVB a.S a).bind fun d => vpairwise .diagmult d b

/-- `v.slice(start,length)` (vbase.hh:202-208). -/
def sliceB (a : VB K) (start length : Int) : Outcome (VB K) :=
  match Checks.sliceDyn a.S a.n start length with
  | .ok => .ok ⟨Checks.Dynamic, length.toNat, fun i => a.cell (start.toNat + i)⟩
  | _ => .abort

/-- `v[i]` with an arbitrary `int` (vbase.hh:162-170): unchecked. -/
def idxB (a : VB K) (i : Int) : Outcome K := if 0 ≤ i then a.get i.toNat else .ub
/-- `m(i,j)`, `m[make_pair(i,j)]` (mbase.hh:134-156): unchecked. -/
def elB (A : MB K) (i j : Int) : Outcome K :=
  if 0 ≤ i ∧ 0 ≤ j then A.get i.toNat j.toNat else .ub
/-- `m[i]` (mbase.hh:162-170): unchecked. -/
def rowB (A : MB K) (i : Int) : Outcome (VB K) := if 0 ≤ i then A.row i.toNat else .ub

/-- `m.diagonal_slice()` (mbase.hh:56-65, 237-248). -/
def diagSB (A : MB K) : VB K :=
  ⟨Typed.diagSize A.R A.C, min A.c A.r, fun i => A.cell i i⟩

/-- `m.slice(rs,cs,rl,cl)` (mbase.hh:220-226, 173-200): both checks, then the view. -/
def sliceMB (A : MB K) (rs cs rl cl : Int) : Outcome (MB K) :=
  match Checks.sliceDyn A.R A.r rs rl with
  | .ok => (match Checks.sliceDyn A.C A.c cs cl with
    | .ok => .ok ⟨Checks.Dynamic, Checks.Dynamic, rl.toNat, cl.toNat,
        fun i j => A.cell (rs.toNat + i) (cs.toNat + j)⟩
    | _ => .abort)
  | _ => .abort

/-- `m1 + m2`, `m1 - m2` (operators.hh:245-285). -/
def mpairwise (o : BinM) (A B : MB K) : Outcome (MB K) :=
  (test A.R B.R A.r B.r).bind fun _ => (test A.C B.C A.c B.c).bind fun _ =>
  (allocM (sizer A.R B.R) (sizer A.C B.C) A.r A.c).bind fun res =>
  storeM res.r res.c (fun i j => (A.get i j).bind fun x => (B.get i j).bind fun y =>
    .ok (opM o x y)) res

/-- `m*s`, `m/s`, `s*m` (operators.hh:554-611). -/
def applyScalarM (o : Sca) (A : MB K) (s : K) : Outcome (MB K) :=
  (allocM A.R A.C A.r A.c).bind fun res =>
  storeM res.r res.c (fun i j => (A.get i j).bind fun x => .ok (match o with
    | .mul => x * s | .div => x / s | .lmul => s * x)) res

/-- `-m` (operators.hh:287-305). -/
def mnegate (A : MB K) : Outcome (MB K) :=
  (allocM A.R A.C A.r A.c).bind fun res => (applyScalarM .mul A (-1)).bind fun t => assignM res t

/-- `m1*m2` (operators.hh:307-339): `res(r,c) = lhs[r] * (rhs.T()[c])`. -/
def matMat (A B : MB K) : Outcome (MB K) :=
  (test A.C B.R A.c B.r).bind fun _ => (allocM A.R B.C A.r B.c).bind fun res =>
  storeM res.r res.c (fun i j => (A.row i).bind fun row => (B.T.row j).bind fun col =>
    dotB row col) res

/-- `diagmult(m,v)` (operators.hh:417-444): columns outside, rows inside. -/
def matDiag (A : MB K) (a : VB K) : Outcome (MB K) :=
  (test A.C a.S A.c a.n).bind fun _ => (allocM A.R A.C A.r A.c).bind fun res =>
  forO res.c (fun j res => (a.get j).bind fun temp =>
    forO res.r (fun i res => (A.get i j).bind fun x => res.set i j (x * temp)) res) res

/-- `diagmult(v,m)` (operators.hh:446-475). -/
def diagMat (a : VB K) (A : MB K) : Outcome (MB K) :=
  (test A.R a.S A.r a.n).bind fun _ => (allocM A.R A.C A.r A.c).bind fun res =>
  forO res.r (fun i res => (a.get i).bind fun temp =>
    forO res.c (fun j res => (A.get i j).bind fun x => res.set i j (temp * x)) res) res

/-- `Matrix<R,C>(Ones(r,c)*s)`: `RCScalars` (objects.h:529-534, 642-664). -/
def onesMB (R C : Int) (r c : Nat) (s : K) : Outcome (MB K) :=
  (allocM R C r c).bind fun res => storeM res.r res.c (fun _ _ => .ok s) res

/-- `Identity<P>::eval` (objects.h:295-307). -/
def identEval (s : K) (m : MB K) : Outcome (MB K) :=
  (test m.R m.C m.r m.c).bind fun _ =>
  (storeM m.r m.c (fun _ _ => .ok 0) m).bind fun m =>
  forO m.r (fun i m => m.set i i s) m

/-- `Matrix<R,C>(Identity(n)*s)`: `SizedIdentity` (objects.h:350-376). -/
def identMB (R C : Int) (n : Nat) (s : K) : Outcome (MB K) :=
  (allocM R C n n).bind fun res => identEval s res

/-- `m ± Ones*s`, `Ones*s - m`: `ScalarsMatrix` (objects.h:422-441, 553-569). -/
def scalarsM (o : Mode) (A : MB K) (s : K) : Outcome (MB K) :=
  (allocM A.R A.C A.r A.c).bind fun res =>
  storeM A.r A.c (fun i j => (A.get i j).bind fun x => .ok (match o with
    | .add => s + x | .rsub => -s + x | .lsub => s - x)) res

/-- `m ± Identity*s`, `Identity*s - m`: the check of objects.h:318-336, then `AddIdentity::eval`
(237-248). -/
def addIdent (o : Mode) (A : MB K) (s : K) : Outcome (MB K) :=
  (test A.R A.C A.r A.c).bind fun _ => (allocM A.R A.C A.r A.c).bind fun res =>
  (storeM A.r A.c (fun i j => (A.get i j).bind fun x => .ok (match o with
    | .lsub => -x | _ => x)) res).bind fun mm =>
  forO A.r (fun i mm => (mm.get i i).bind fun x => mm.set i i (x + (match o with
    | .rsub => -s | _ => s))) mm

/-- `v.as_col()` / `v.as_row()` (vbase.hh:211-226).  On a `Vector<Resizable>` the resulting matrix
type is `Matrix<Resizable,1>`, whose `num_rows()` is `-0x7fffffff` (C60): counted as undefined. -/
def asColB (a : VB K) : Outcome (MB K) :=
  if a.S = Checks.Resizable then .ub else .ok ⟨a.S, 1, a.n, 1, fun i _ => a.cell i⟩
def asRowB (a : VB K) : Outcome (MB K) :=
  if a.S = Checks.Resizable then .ub else .ok ⟨1, a.S, 1, a.n, fun _ i => a.cell i⟩

end ops

/-- Objects. -/
abbrev CVal (K : Type) : Knd → Type
  | .s => K
  | .v => VB K
  | .m => MB K

/-- Types: the template size parameters. -/
abbrev Ty : Knd → Type
  | .s => Unit
  | .v => Int
  | .m => Int × Int

/-- The variables in scope. -/
structure CEnv (K : Type) where
  v : Nat → Option (VB K)
  m : Nat → Option (MB K)

/-- The declared types of the variables. -/
structure TEnv where
  v : Nat → Option Int
  m : Nat → Option (Int × Int)

def CEnv.types (ρ : CEnv K) : TEnv :=
  ⟨fun i => (ρ.v i).map VB.S, fun i => (ρ.m i).map fun m => (m.R, m.C)⟩

/-- A size the user may write for a vector / matrix (positive static size, `Dynamic`, `Resizable`
for vectors only). -/
def legalV (S : Sz) : Bool := match S with | .st n => 0 < n | _ => true
def legalM (S : Sz) : Bool := match S with | .st n => 0 < n | .dyn => true | .rsz => false

/-- Does the expression compile, and with which template sizes?  The result types are those of the
signatures in operators.hh (153-175, 190, 211, 268-285, 300, 330, 386, 411, 438, 469, 518-524, 546,
578-583, 607, 619-650), diagmatrix.h:171-203, vbase.hh:202-226; the conditions are the static parts of
the `SizeMismatch` tests, and `operator^` exists only for `Vector<3>` (210). -/
def comp (Γ : TEnv) : {k : Knd} → Ex K k → Option (Ty k)
  | _, .lit _ => some ()
  | _, .dot a b => (comp Γ a).bind fun S1 => (comp Γ b).bind fun S2 =>
      if testC S1 S2 then some () else none
  | _, .idx a _ => (comp Γ a).bind fun _ => some ()
  | _, .el A _ _ => (comp Γ A).bind fun _ => some ()
  | _, .varV i => Γ.v i
  | _, .onesV S _ s => (comp Γ s).bind fun _ => if legalV S then some S.toInt else none
  | _, .convV S a => (comp Γ a).bind fun S1 =>
      if legalV S && testC S.toInt S1 then some S.toInt else none
  | _, .binV _ a b => (comp Γ a).bind fun S1 => (comp Γ b).bind fun S2 =>
      if testC S1 S2 then some (sizer S1 S2) else none
  | _, .negV a => comp Γ a
  | _, .scaV _ a s => (comp Γ a).bind fun S1 => (comp Γ s).bind fun _ => some S1
  | _, .onesOpV _ a s => (comp Γ a).bind fun S1 => (comp Γ s).bind fun _ => some S1
  | _, .cross a b => (comp Γ a).bind fun (S1 : Int) => (comp Γ b).bind fun (S2 : Int) =>
      if S1 = 3 ∧ S2 = 3 then some (3 : Int) else none
  | _, .mulMV A a => (comp Γ A).bind fun (RC : Int × Int) => (comp Γ a).bind fun S =>
      if testC RC.2 S then some RC.1 else none
  | _, .mulVM a A => (comp Γ a).bind fun S => (comp Γ A).bind fun (RC : Int × Int) =>
      if testC RC.1 S then some RC.2 else none
  | _, .diagMulV a b => (comp Γ a).bind fun S1 => (comp Γ b).bind fun S2 =>
      if testC S1 S2 then some (sizer S1 S2) else none
  | _, .sliceV a _ _ => (comp Γ a).bind fun _ => some Checks.Dynamic
  | _, .row A _ => (comp Γ A).bind fun (X : Int × Int) => some X.2
  | _, .diagS A => (comp Γ A).bind fun (X : Int × Int) => some (Typed.diagSize X.1 X.2)
  | _, .varM i => Γ.m i
  | _, .onesM R C _ _ s => (comp Γ s).bind fun _ =>
      if legalM R && legalM C then some (R.toInt, C.toInt) else none
  | _, .identM R C _ s => (comp Γ s).bind fun _ =>
      if legalM R && legalM C && testC R.toInt C.toInt then some (R.toInt, C.toInt) else none
  | _, .convM R C A => (comp Γ A).bind fun (RC : Int × Int) =>
      if legalM R && legalM C && testC R.toInt RC.1 && testC C.toInt RC.2 then
        some (R.toInt, C.toInt) else none
  | _, .binM _ A B => (comp Γ A).bind fun (X : Int × Int) => (comp Γ B).bind fun (Y : Int × Int) =>
      if testC X.1 Y.1 && testC X.2 Y.2 then some (sizer X.1 Y.1, sizer X.2 Y.2) else none
  | _, .negM A => comp Γ A
  | _, .scaM _ A s => (comp Γ A).bind fun X => (comp Γ s).bind fun _ => some X
  | _, .onesOpM _ A s => (comp Γ A).bind fun X => (comp Γ s).bind fun _ => some X
  | _, .identOpM _ A s => (comp Γ A).bind fun (X : Int × Int) => (comp Γ s).bind fun _ =>
      if testC X.1 X.2 then some X else none
  | _, .mulMM A B => (comp Γ A).bind fun (X : Int × Int) => (comp Γ B).bind fun (Y : Int × Int) =>
      if testC X.2 Y.1 then some (X.1, Y.2) else none
  | _, .mulMD A a => (comp Γ A).bind fun (X : Int × Int) => (comp Γ a).bind fun S =>
      if testC X.2 S then some X else none
  | _, .mulDM a A => (comp Γ a).bind fun S => (comp Γ A).bind fun (X : Int × Int) =>
      if testC X.1 S then some X else none
  | _, .transp A => (comp Γ A).bind fun (X : Int × Int) => some (X.2, X.1)
  | _, .sliceM A _ _ _ _ => (comp Γ A).bind fun _ => some (Checks.Dynamic, Checks.Dynamic)
  | _, .asCol a => (comp Γ a).bind fun (S : Int) => some (S, (1 : Int))
  | _, .asRow a => (comp Γ a).bind fun (S : Int) => some ((1 : Int), S)

/-- Execution of an expression (the temporaries are the results of the operator functions above). -/
def run [Zero K] [One K] [Add K] [Sub K] [Mul K] [Div K] [Neg K] (ρ : CEnv K) : {k : Knd} → Ex K k → Outcome (CVal K k)
  | _, .lit x => .ok x
  | _, .dot a b => (run ρ a).bind fun a => (run ρ b).bind fun b => dotB (K := K) a b
  | _, .idx a i => (run ρ a).bind fun a => idxB (K := K) a i
  | _, .el A i j => (run ρ A).bind fun A => elB (K := K) A i j
  | _, .varV i => match ρ.v i with | some v => .ok v | none => .abort
  | _, .onesV S n s => (run ρ s).bind fun (s : K) => onesVB S.toInt n s
  | _, .convV S a => (run ρ a).bind fun a => convVB S.toInt a
  | _, .binV o a b => (run ρ a).bind fun a => (run ρ b).bind fun b => vpairwise o a b
  | _, .negV a => (run ρ a).bind fun a => vnegate a
  | _, .scaV o a s => (run ρ a).bind fun a => (run ρ s).bind fun (s : K) => applyScalarV o a s
  | _, .onesOpV o a s => (run ρ a).bind fun a => (run ρ s).bind fun (s : K) => scalarsV o a s
  | _, .cross a b => (run ρ a).bind fun a => (run ρ b).bind fun b => crossB a b
  | _, .mulMV A a => (run ρ A).bind fun A => (run ρ a).bind fun a => matVec A a
  | _, .mulVM a A => (run ρ a).bind fun a => (run ρ A).bind fun A => vecMat a A
  | _, .diagMulV a b => (run ρ a).bind fun a => (run ρ b).bind fun b => diagVec a b
  | _, .sliceV a start length => (run ρ a).bind fun a => sliceB a start length
  | _, .row A i => (run ρ A).bind fun A => rowB (K := K) A i
  | _, .diagS A => (run ρ A).bind fun (A : MB K) => .ok (diagSB A)
  | _, .varM i => match ρ.m i with | some v => .ok v | none => .abort
  | _, .onesM R C r c s => (run ρ s).bind fun (s : K) => onesMB R.toInt C.toInt r c s
  | _, .identM R C n s => (run ρ s).bind fun (s : K) => identMB R.toInt C.toInt n s
  | _, .convM R C A => (run ρ A).bind fun A => convMB R.toInt C.toInt A
  | _, .binM o A B => (run ρ A).bind fun A => (run ρ B).bind fun B => mpairwise o A B
  | _, .negM A => (run ρ A).bind fun A => mnegate A
  | _, .scaM o A s => (run ρ A).bind fun A => (run ρ s).bind fun (s : K) => applyScalarM o A s
  | _, .onesOpM o A s => (run ρ A).bind fun A => (run ρ s).bind fun (s : K) => scalarsM o A s
  | _, .identOpM o A s => (run ρ A).bind fun A => (run ρ s).bind fun (s : K) => addIdent o A s
  | _, .mulMM A B => (run ρ A).bind fun A => (run ρ B).bind fun B => matMat A B
  | _, .mulMD A a => (run ρ A).bind fun A => (run ρ a).bind fun a => matDiag A a
  | _, .mulDM a A => (run ρ a).bind fun a => (run ρ A).bind fun A => diagMat a A
  | _, .transp A => (run ρ A).bind fun (A : MB K) => .ok A.T
  | _, .sliceM A rs cs rl cl => (run ρ A).bind fun A => sliceMB (K := K) A rs cs rl cl
  | _, .asCol a => (run ρ a).bind fun a => asColB a
  | _, .asRow a => (run ρ a).bind fun a => asRowB a

/-- What the user sees. -/
inductive Result (α : Type) where
  | compileError
  | ok (a : α)
  | abort
  | ub

def exec [Zero K] [One K] [Add K] [Sub K] [Mul K] [Div K] [Neg K] (ρ : CEnv K) {k : Knd} (e : Ex K k) : Result (CVal K k) :=
  match comp ρ.types e with
  | none => .compileError
  | some _ => match run ρ e with
    | .ok a => .ok a
    | .abort => .abort
    | .ub => .ub

end TooN.Expr
