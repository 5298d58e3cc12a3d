import Verif.Model.Loop
import Verif.Model.Ops
/-!
# Machine generated families of functions

`makeVector(x1, …, xn)` (internal/make_vector.hh), `Data(x1, …, xn)` (internal/data_functions.hh) and `transformCovariance`
(generated.h).  The first two are transcribed statement by statement into the tables of `Model/GenTables.lean`.
-/
namespace TooN.Generated

/-- a generated function: `R<ret> f(T x_{params[0]}, …) { R<loc> vals; vals[lhs[0]] = x_{rhs[0]}; …; return vals; }` -/
structure Fn where
  /-- a template in the precision (otherwise all parameters are `double`) -/
  template : Bool
  /-- static size of the returned object -/
  ret : Nat
  /-- static size of the local variable -/
  loc : Nat
  /-- numbers of the parameters, in order -/
  params : List Nat
  /-- indices assigned, in order -/
  lhs : List Nat
  /-- numbers of the parameters the elements are assigned from, in order -/
  rhs : List Nat

/-- the value of parameter `x_k` when the function is called with `args` -/
def Fn.lookup {K : Type} (f : Fn) (args : List K) (k : Nat) : Option K := (f.params.zip args).lookup k

/-- execution of the body (make_vector.hh, data_functions.hh: every function has this form): elements start uninitialised (`none`);
an index outside the local array or an unknown parameter is an error (`none`) -/
def Fn.exec {K : Type} (f : Fn) (args : List K) : List (Nat × Nat) → (Nat → Option K) → Option (Nat → Option K)
  | [], m => some m
  | (i, k) :: rest, m =>
    if i < f.loc then
      match f.lookup args k with
      | some x => f.exec args rest (fun j => if j = i then some x else m j)
      | none => none
    else none

/-- a call with the arguments `args`: the returned object's size and elements -/
def Fn.call {K : Type} (f : Fn) (args : List K) : Option (Nat × (Nat → Option K)) :=
  if f.params.length = args.length ∧ f.ret = f.loc then (f.exec args (f.lhs.zip f.rhs) fun _ => none).map fun m => (f.ret, m) else none

section cov
variable {K : Type} [Zero K] [Add K] [Mul K]

/-- `{ const Vector<N> ABi = B * A[i]; M[i][i] = ABi * A[i]; M[i][j] = M[j][i] = ABi * A[j]; … }` for `j = i+1 … n-1`, the block repeated in
generated.h:10-13, 20-28 (the last block is the line `M[i][i] = (B * A[i]) * A[i]`, generated.h:14, 29) -/
def covBlock (n N : Nat) (A B : Mat K) (u : Vec K) (i : Nat) (M : Mat K) : Mat K :=
  let ABi := Ops.mulMV N N B (A i) u
  let M := Mat.set M i i (Ops.dot N ABi (A i))
  forRange (i + 1) n (fun j M =>
    let x := Ops.dot N ABi (A j)
    Mat.set (Mat.set M j i x) i j x) M

/-- `transformCovariance(A, B, M)` for `2×N` and `3×N` matrices `A` (generated.h:8-30); generated.h:32-68 is the same for `6×N` but
is disabled.  Not modelled: the types `FixedMatrix` no longer exist in the library, so the header does not compile. -/
def transformCovariance (n N : Nat) (A B : Mat K) (u : Vec K) (M : Mat K) : Mat K :=
  forN n (covBlock n N A B u) M
end cov

end TooN.Generated
