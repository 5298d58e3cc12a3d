import Verif.Model.Loop
/-!
# Arithmetic operators (operators.hh, objects.h, diagmatrix.h)

An operator call in TooN returns a lazy `Operator<…>` whose `eval(res)` fills the freshly allocated
(uninitialised) result.  Every model function below therefore takes the uninitialised contents
`u` of the result explicitly; nothing is assumed about it.  Sizes are assumed checked
(`SizeMismatch::test`, see `Model/Checks.lean`).  Element types are one type `K`
(mixed precisions: `Model/Mixed.lean`).
-/
namespace TooN.Ops
variable {K : Type _}

/-- `VPairwise::eval` (operators.hh:145-150), `op` being the mini operator (96-111):
`operator+` 155-161, `operator-` 163-169, `diagmult` 171-177. -/
def pairwiseV (op : K → K → K) (n : Nat) (a b : Vec K) (u : Vec K) : Vec K :=
  forN n (fun i res => Vec.set res i (op (a i) (b i))) u

def addV [Add K] := pairwiseV (K := K) (· + ·)
def subV [Sub K] := pairwiseV (K := K) (· - ·)
def diagmultVV [Mul K] := pairwiseV (K := K) (· * ·)

/-- `ApplyScalarV::eval` (operators.hh:507-512): `v*s`, `v/s` (519-526). -/
def applyScalarV (op : K → K → K) (n : Nat) (a : Vec K) (s : K) (u : Vec K) : Vec K :=
  forN n (fun i res => Vec.set res i (op (a i) s)) u

/-- `ApplyScalarVL::eval` (operators.hh:535-540): `s*v` (546-549). -/
def applyScalarVL (op : K → K → K) (n : Nat) (s : K) (a : Vec K) (u : Vec K) : Vec K :=
  forN n (fun i res => Vec.set res i (op s (a i))) u

/-- elementwise copy `res = from` into separate storage (vector.hh:263-271). -/
def copyV (n : Nat) (a : Vec K) (u : Vec K) : Vec K := forN n (fun i res => Vec.set res i (a i)) u

/-- `VNegate::eval`: `res = input * -1` (operators.hh:184-188): a temporary `t`, then a copy. -/
def negV [Mul K] [Neg K] [One K] (n : Nat) (a : Vec K) (t u : Vec K) : Vec K :=
  copyV n (applyScalarV (· * ·) n a (-1) t) u

/-- dot product (operators.hh:198-208). -/
def dot [Add K] [Mul K] [Zero K] (n : Nat) (a b : Vec K) : K :=
  forN n (fun i result => result + a i * b i) 0

/-- cross product `v1 ^ v2` (operators.hh:210-222). -/
def cross [Sub K] [Mul K] (a b : Vec K) (u : Vec K) : Vec K :=
  let r := Vec.set u 0 (a 1 * b 2 - a 2 * b 1)
  let r := Vec.set r 1 (a 2 * b 0 - a 0 * b 2)
  Vec.set r 2 (a 0 * b 1 - a 1 * b 0)

/-- the double loop `for r for c res(r,c) = f r c` used by all matrix `eval`s -/
def evalM (R C : Nat) (f : Nat → Nat → K) (u : Mat K) : Mat K :=
  forN R (fun r res => forN C (fun c res => Mat.set res r c (f r c)) res) u

/-- the double loop `for c for r res(r,c) = f r c` -/
def evalMc (R C : Nat) (f : Nat → Nat → K) (u : Mat K) : Mat K :=
  forN C (fun c res => forN R (fun r res => Mat.set res r c (f r c)) res) u

/-- `MPairwise::eval` (operators.hh:254-262): `operator+` 267-275, `operator-` 277-285. -/
def pairwiseM (op : K → K → K) (R C : Nat) (A B : Mat K) (u : Mat K) : Mat K :=
  evalM R C (fun r c => op (A r c) (B r c)) u

def addM [Add K] := pairwiseM (K := K) (· + ·)
def subM [Sub K] := pairwiseM (K := K) (· - ·)

/-- `ApplyScalarM::eval` (operators.hh:562-569): `m*s`, `m/s`. -/
def applyScalarM (op : K → K → K) (R C : Nat) (A : Mat K) (s : K) (u : Mat K) : Mat K :=
  evalM R C (fun r c => op (A r c) s) u

/-- `ApplyScalarML::eval` (operators.hh:595-602): `s*m`, scalar and element type equal. -/
def applyScalarML (op : K → K → K) (R C : Nat) (s : K) (A : Mat K) (u : Mat K) : Mat K :=
  evalM R C (fun r c => op s (A r c)) u

/-- `MNegate::eval` (operators.hh:292-296): `res = input * -1`, through a temporary `t`. -/
def negM [Mul K] [Neg K] [One K] (R C : Nat) (A : Mat K) (t u : Mat K) : Mat K :=
  evalM R C (applyScalarM (· * ·) R C A (-1) t) u

/-- `MatrixMultiply::eval` (operators.hh:315-324): `res(r,c) = lhs[r] * (rhs.T()[c])`. -/
def mulMM [Add K] [Mul K] [Zero K] (R M C : Nat) (A B : Mat K) (u : Mat K) : Mat K :=
  evalM R C (fun r c => dot M (A r) ((Mat.T B) c)) u

/-- `MatrixVectorMultiply::eval` (operators.hh:375-380). -/
def mulMV [Add K] [Mul K] [Zero K] (R C : Nat) (A : Mat K) (v : Vec K) (u : Vec K) : Vec K :=
  forN R (fun i res => Vec.set res i (dot C (A i) v)) u

/-- `VectorMatrixMultiply::eval` (operators.hh:400-405). -/
def mulVM [Add K] [Mul K] [Zero K] (R C : Nat) (v : Vec K) (A : Mat K) (u : Vec K) : Vec K :=
  forN C (fun i res => Vec.set res i (dot R v ((Mat.T A) i))) u

/-- `MatrixVectorDiagMultiply::eval` (operators.hh:428-436), also `Matrix*DiagonalMatrix`
(diagmatrix.h:191-195). -/
def diagmultMV [Mul K] (R C : Nat) (A : Mat K) (v : Vec K) (u : Mat K) : Mat K :=
  evalMc R C (fun r c => A r c * v c) u

/-- `VectorMatrixDiagMultiply::eval` (operators.hh:457-465), also `DiagonalMatrix*Matrix`
(diagmatrix.h:197-202). -/
def diagmultVM [Mul K] (R C : Nat) (v : Vec K) (A : Mat K) (u : Mat K) : Mat K :=
  evalM R C (fun r c => v r * A r c) u

/-- `DiagonalMatrix::inverse` (diagmatrix.h:161-167).  Division by zero is `none`. -/
def diagInverse [Zero K] [One K] [Div K] [DecidableEq K] (n : Nat) (d : Vec K) (u : Vec K) : Option (Vec K) :=
  forNM n (fun i inv => if d i = 0 then none else some (Vec.set inv i (1 / d i))) u

/-- a `DiagonalMatrix` assigned to a matrix: `m = Zeros; m.diagonal_slice() = my_vector`
(diagmatrix.h:77-82); the matrix is `n × n`. -/
def diagEval [Zero K] (n : Nat) (d : Vec K) (u : Mat K) : Mat K :=
  forN n (fun i m => Mat.set m i i (d i)) (evalM n n (fun _ _ => 0) u)

/-- `m = Zeros` (objects.h:137-144) and `v = Zeros` (130-135). -/
def zerosM [Zero K] (R C : Nat) (u : Mat K) : Mat K := evalM R C (fun _ _ => 0) u
def zerosV [Zero K] (n : Nat) (u : Vec K) : Vec K := forN n (fun i v => Vec.set v i 0) u

/-- `m = Identity*val` (objects.h:294-307); the size test is part of the call. -/
def identityEval [Zero K] (R C : Nat) (val : K) (u : Mat K) : Outcome (Mat K) :=
  if R ≠ C then .abort
  else .ok (forN R (fun r m => Mat.set m r r val) (evalM R C (fun _ _ => 0) u))

/-- `m += Identity*val` (objects.h:309-315). -/
def identityPlusEq [Add K] (R C : Nat) (val : K) (m : Mat K) : Outcome (Mat K) :=
  if R ≠ C then .abort
  else .ok (forN R (fun i m => Mat.set m i i (m i i + val)) m)

/-- `AddIdentity::eval` (objects.h:237-248). -/
def addIdentityEval [Add K] [Neg K] (R C : Nat) (s : K) (m : Mat K) (inv : Bool) (u : Mat K) : Mat K :=
  forN R (fun i mm => Mat.set mm i i (mm i i + s))
    (evalM R C (fun r c => if inv then -(m r c) else m r c) u)

/-- `m + Identity*val`, `Identity*val + m` (objects.h:317-322; operators.hh:631-639). -/
def addIdentity [Add K] [Neg K] (R C : Nat) (val : K) (m u : Mat K) : Outcome (Mat K) :=
  if R ≠ C then .abort else .ok (addIdentityEval R C val m false u)
/-- `m - Identity*val` (objects.h:324-329; operators.hh:654-657). -/
def subIdentity [Add K] [Neg K] (R C : Nat) (val : K) (m u : Mat K) : Outcome (Mat K) :=
  if R ≠ C then .abort else .ok (addIdentityEval R C (-val) m false u)
/-- `Identity*val - m` (objects.h:331-336; operators.hh:659-662). -/
def identitySub [Add K] [Neg K] (R C : Nat) (val : K) (m u : Mat K) : Outcome (Mat K) :=
  if R ≠ C then .abort else .ok (addIdentityEval R C val m true u)

/-- `ScalarsVector::eval` (objects.h:400-407). -/
def scalarsVec [Add K] [Sub K] (n : Nat) (s : K) (v : Vec K) (inv : Bool) (u : Vec K) : Vec K :=
  forN n (fun i vv => Vec.set vv i (if inv then s - v i else s + v i)) u
/-- `ScalarsMatrix::eval` (objects.h:431-439). -/
def scalarsMat [Add K] [Sub K] (R C : Nat) (s : K) (m : Mat K) (inv : Bool) (u : Mat K) : Mat K :=
  evalM R C (fun r c => if inv then s - m r c else s + m r c) u

/-- `v = Ones*s`, `v += Ones*s`, `v -= Ones*s` (objects.h:484-503). -/
def onesEvalV (n : Nat) (s : K) (v : Vec K) : Vec K := forN n (fun i v => Vec.set v i s) v
def onesPlusEqV [Add K] (n : Nat) (s : K) (v : Vec K) : Vec K := forN n (fun i v => Vec.set v i (v i + s)) v
def onesMinusEqV [Sub K] (n : Nat) (s : K) (v : Vec K) : Vec K := forN n (fun i v => Vec.set v i (v i - s)) v
/-- `v + Ones*s`, `Ones*s + v`, `v - Ones*s`, `Ones*s - v` (objects.h:505-521). -/
def onesAddV [Add K] [Sub K] (n : Nat) (s : K) (v u : Vec K) : Vec K := scalarsVec n s v false u
def onesRSubV [Add K] [Sub K] [Neg K] (n : Nat) (s : K) (v u : Vec K) : Vec K := scalarsVec n (-s) v false u
def onesLSubV [Add K] [Sub K] (n : Nat) (s : K) (v u : Vec K) : Vec K := scalarsVec n s v true u
/-- matrix versions (objects.h:528-569). -/
def onesEvalM (R C : Nat) (s : K) (m : Mat K) : Mat K := evalM R C (fun _ _ => s) m
def onesPlusEqM [Add K] (R C : Nat) (s : K) (m : Mat K) : Mat K :=
  forN R (fun r m => forN C (fun c m => Mat.set m r c (m r c + s)) m) m
def onesMinusEqM [Sub K] (R C : Nat) (s : K) (m : Mat K) : Mat K :=
  forN R (fun r m => forN C (fun c m => Mat.set m r c (m r c - s)) m) m
def onesAddM [Add K] [Sub K] (R C : Nat) (s : K) (m u : Mat K) : Mat K := scalarsMat R C s m false u
def onesRSubM [Add K] [Sub K] [Neg K] (R C : Nat) (s : K) (m u : Mat K) : Mat K := scalarsMat R C (-s) m false u
def onesLSubM [Add K] [Sub K] (R C : Nat) (s : K) (m u : Mat K) : Mat K := scalarsMat R C s m true u

/-- `v == w` (vector.hh:360-369): early exit on the first difference.  `ne` is the scalar `!=`. -/
def eqV (ne : K → K → Bool) (n : Nat) (v w : Vec K) : Bool :=
  (forNM n (fun i (_ : Unit) => if ne (v i) (w i) then none else some ()) ()).isSome
/-- `v != w` (vector.hh:371-378). -/
def neV (ne : K → K → Bool) (n : Nat) (v w : Vec K) : Bool :=
  (forNM n (fun i (_ : Unit) => if ne (v i) (w i) then none else some ()) ()).isNone
/-- `m == w` (matrix.hh:259-270), `m != w` (matrix.hh:272-283). -/
def eqM (ne : K → K → Bool) (R C : Nat) (v w : Mat K) : Bool :=
  (forNM R (fun r (_ : Unit) => forNM C (fun c (_ : Unit) => if ne (v r c) (w r c) then none else some ()) ()) ()).isSome
def neM (ne : K → K → Bool) (R C : Nat) (v w : Mat K) : Bool :=
  (forNM R (fun r (_ : Unit) => forNM C (fun c (_ : Unit) => if ne (v r c) (w r c) then none else some ()) ()) ()).isNone
/-- `v != Zeros` (objects.h:158-164), `m != Zeros` (147-155). -/
def neZeroV [Zero K] (ne : K → K → Bool) (n : Nat) (v : Vec K) : Bool :=
  (forNM n (fun i (_ : Unit) => if ne (v i) 0 then none else some ()) ()).isNone


end TooN.Ops
