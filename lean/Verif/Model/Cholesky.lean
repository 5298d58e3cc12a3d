import Verif.Model.Loop
import Verif.Model.Ops
import Mathlib.Algebra.Field.Basic
/-!
# Cholesky.h: in-place `L D Lᵀ`

The definitions use only the operations of the element type: exact arithmetic for a field (C20–C22), rounded
arithmetic for `Fl ρ` (`Model/Float.lean`, C62).  Matrices are total functions of which the leading `n × n`
block is the object's storage `my_cholesky`.
-/
namespace TooN.Chol
variable {K : Type _} [Zero K] [One K] [Add K] [Sub K] [Mul K] [Div K] [DecidableEq K]

/-- State of `do_compute`: still running (storage, `inv_diag`), or returned early (storage, `my_rank`). -/
inductive St (K : Type _)
  | run (m : Mat K) (inv_diag : K)
  | ret (m : Mat K) (rank : Nat)

/-- `val = my_cholesky(row,col); for(col2<col) val -= my_cholesky(col2,col)*my_cholesky(row,col2)`
(Cholesky.h:101-105) -/
def val (m : Mat K) (row col : Nat) : K :=
  forN col (fun col2 v => v - m col2 col * m row col2) (m row col)

/-- body of the `row` loop (Cholesky.h:99-120) -/
def rowBody (col row : Nat) (s : St K) : St K :=
  match s with
  | .run m inv_diag =>
    let v := val m row col
    if row = col then
      let m := Mat.set m row col v
      if v = 0 then .ret m row else .run m (1 / v)
    else
      let m := Mat.set m col row v
      .run (Mat.set m row col (v * inv_diag)) inv_diag
  | .ret m k => .ret m k

/-- body of the `col` loop (Cholesky.h:97-121); `inv_diag` is reset to 1 -/
def colBody (n col : Nat) (s : St K) : St K :=
  match s with
  | .run m _ => forRange col n (rowBody col) (.run m 1)
  | .ret m k => .ret m k

/-- `my_cholesky` and `my_rank` after the loops (Cholesky.h:122) -/
def finish (n : Nat) : St K → Mat K × Nat
  | .run m _ => (m, n)
  | .ret m k => (m, k)

/-- `do_compute()` (Cholesky.h:95-123) on the copy of the argument made by the constructor/`compute`
(76, 90). Result: (`my_cholesky`, `my_rank`). -/
def compute (n : Nat) (A : Mat K) : Mat K × Nat := finish n (forN n (colBody n) (.run A 1))

/-- `backsub`, first loop (Cholesky.h:135-142) -/
def fwd (n : Nat) (m : Mat K) (v y : Vec K) : Vec K :=
  forN n (fun i y => Vec.set y i (forN i (fun j val => val - m i j * y j) (v i))) y

/-- `backsub`, division by the diagonal (Cholesky.h:145-147); `none` = division by zero -/
def divDiag (n : Nat) (m : Mat K) (y : Vec K) : Option (Vec K) :=
  forNM n (fun i y => if m i i = 0 then none else some (Vec.set y i (y i / m i i))) y

/-- `backsub`, last loop (Cholesky.h:150-157) -/
def bwd (n : Nat) (m : Mat K) (y x : Vec K) : Vec K :=
  forDown n (fun i x => Vec.set x i (forRange (i+1) n (fun j val => val - m j i * x j) (y i))) x

/-- `backsub(v)` (Cholesky.h:129-160); `u`, `w` are the uninitialised contents of `y`, `result` -/
def backsub (n : Nat) (m : Mat K) (v u w : Vec K) : Option (Vec K) :=
  (divDiag n m (fwd n m v u)).bind fun y => some (bwd n m y w)

/-- assignment of row `i` of an `n × nc` matrix (elementwise; see `Model/Ops.lean`, `Model/Assign.lean`) -/
def setRow (m : Mat K) (i nc : Nat) (row : Vec K) : Mat K :=
  fun r c => if r = i ∧ c < nc then row c else m r c

/-- `backsub(M)`, first loop (Cholesky.h:170-177).  `val -= s*y[j]` on a row vector is elementwise. -/
def fwdM (n nc : Nat) (m B y : Mat K) : Mat K :=
  forN n (fun i y => setRow y i nc (forN i (fun j (val : Vec K) => fun k => val k - m i j * y j k) (B i))) y

/-- `y[i] *= (1/my_cholesky(i,i))` (Cholesky.h:180-182) -/
def divDiagM (n nc : Nat) (m y : Mat K) : Option (Mat K) :=
  forNM n (fun i y => if m i i = 0 then none else some (setRow y i nc (fun k => y i k * (1 / m i i)))) y

/-- last loop (Cholesky.h:185-192) -/
def bwdM (n nc : Nat) (m y x : Mat K) : Mat K :=
  forDown n (fun i x => setRow x i nc
    (forRange (i+1) n (fun j (val : Vec K) => fun k => val k - m j i * x j k) (y i))) x

/-- `backsub(M)` (Cholesky.h:164-194) -/
def backsubM (n nc : Nat) (m B u w : Mat K) : Option (Mat K) :=
  (divDiagM n nc m (fwdM n nc m B u)).bind fun y => some (bwdM n nc m y w)

/-- `get_inverse()` (Cholesky.h:200-203): `I(Identity(n))` then `backsub(I)`. -/
def getInverse (n : Nat) (m u w : Mat K) : Option (Mat K) :=
  backsubM n n m (fun r c => if r = c then 1 else 0) u w

/-- `determinant()` (Cholesky.h:206-212); reads `my_cholesky(0,0)`, so `n ≥ 1`. -/
def determinant (n : Nat) (m : Mat K) : K :=
  forRange 1 n (fun i answer => answer * m i i) (m 0 0)

/-- `mahalanobis(v) = v * backsub(v)` (Cholesky.h:215-217) -/
def mahalanobis (n : Nat) (m : Mat K) (v u w : Vec K) : Option K :=
  (backsub n m v u w).bind fun x => some (Ops.dot n v x)

/-- `get_unscaled_L()` (Cholesky.h:219-229): `m=Identity` on the `n × n` result, then the copy loop. -/
def getUnscaledL (n : Nat) (m u : Mat K) : Mat K :=
  forRange 1 n (fun i L => forN i (fun j L => Mat.set L i j (m i j)) L)
    (fun r c => if r < n ∧ c < n then (if r = c then 1 else 0) else u r c)

/-- `get_D()` (Cholesky.h:231-239) -/
def getD (n : Nat) (m u : Mat K) : Mat K :=
  forN n (fun i D => Mat.set D i i (m i i)) (fun r c => if r < n ∧ c < n then 0 else u r c)

/-- `get_L()` (Cholesky.h:241-254) with the square root as a parameter -/
def getL (sqrt : K → K) (n : Nat) (m u : Mat K) : Mat K :=
  forN n (fun j L => forRange (j+1) n (fun i L => Mat.set L i j (m i j * sqrt (m j j)))
    (Mat.set L j j (sqrt (m j j)))) (fun r c => if r < n ∧ c < n then 0 else u r c)

end TooN.Chol
