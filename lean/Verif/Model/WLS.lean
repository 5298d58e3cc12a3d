import Verif.Model.Cholesky
/-!
# wls.h: `WLS<Size, Precision, Cholesky>`

`C` = `my_C_inv`, `v` = `my_vector`, `mu` = `my_mu` (`none` = the last `compute()` divided by zero).
`ju` supplies the uninitialised contents of temporaries.  The `double Jw` of wls.h:103/161 is exact here.
Size checks (`SizeMismatch`, slice checks) are properties C04/C05.
-/
namespace TooN.WLS
variable {K : Type _} [Zero K] [One K] [Add K] [Sub K] [Mul K] [Div K] [DecidableEq K]

structure St (K : Type _) where
  C : Mat K
  v : Vec K
  mu : Option (Vec K)

/-- `clear()` (wls.h:60-63) -/
def clear (n : Nat) (s : St K) : St K := { s with C := Ops.zerosM n n s.C, v := Ops.zerosV n s.v }

/-- `add_prior(Precision)` (wls.h:68-72) -/
def addPriorS (n : Nat) (val : K) (s : St K) : St K :=
  { s with C := forN n (fun i C => Mat.set C i i (C i i + val)) s.C }

/-- `add_prior(Vector)` (wls.h:78-83) -/
def addPriorV (n : Nat) (p : Vec K) (s : St K) : St K :=
  { s with C := forN n (fun i C => Mat.set C i i (C i i + p i)) s.C }

/-- `M += m` on an `R × C` matrix view at offset `(r0,c0)` (matrix.hh:219-230, through a slice) -/
def plusEqM (R C r0 c0 : Nat) (m : Mat K) (A : Mat K) : Mat K :=
  forN R (fun r A => forN C (fun c A => Mat.set A (r + r0) (c + c0) (A (r + r0) (c + c0) + m r c)) A) A

/-- `v += w` on a length-`k` slice at offset `i0` (vector.hh:317-323) -/
def plusEqV (k i0 : Nat) (w : Vec K) (v : Vec K) : Vec K :=
  forN k (fun i v => Vec.set v (i + i0) (v (i + i0) + w i)) v

/-- `add_prior(Matrix)` (wls.h:89-91) -/
def addPriorM (n : Nat) (m : Mat K) (s : St K) : St K := { s with C := plusEqM n n 0 0 m s.C }

/-- the upper-triangle update of `add_mJ` / `add_sparse_mJ` (wls.h:101-107 with `off = 0`, `k = n`;
wls.h:159-165 with `off = index1`, `k = J1.size()`) -/
def addUpper (k off : Nat) (m : K) (J : Vec K) (weight : K) (s : St K) : St K :=
  forN k (fun r s =>
    let Jw := weight * J r
    let s : St K := { s with v := Vec.set s.v (r + off) (s.v (r + off) + m * Jw) }
    { s with C := forRange r k (fun c C => Mat.set C (r + off) (c + off) (C (r + off) (c + off) + Jw * J c)) s.C }) s

/-- `add_mJ(m, J, weight)` (wls.h:98-108) -/
def addmJ (n : Nat) (m : K) (J : Vec K) (weight : K) (s : St K) : St K := addUpper n 0 m J weight s

/-- `add_mJ(Vector m, Matrix J, weight)` (wls.h:115-121); `J` is `S × n` -/
def addmJs (n S : Nat) (m : Vec K) (J : Mat K) (weight : K) (s : St K) : St K :=
  forN S (fun r s => addmJ n (m r) (J r) weight s) s

/-- `add_mJ(m, J, invcov)` (wls.h:128-134); `J` is `n × N` -/
def addmJcov (n N : Nat) (m : Vec K) (J W : Mat K) (ju : Nat → Mat K) (s : St K) : St K :=
  let temp := Ops.mulMM n N N J W (ju 0)
  { s with
    C := plusEqM n n 0 0 (Ops.mulMM n N n temp (Mat.T J) (ju 1)) s.C
    v := plusEqV n 0 (Ops.mulMV n N temp m (ju 2 0)) s.v }

/-- `add_mJ_rows(m, J, invcov)` (wls.h:141-147); `J` is `N × n` -/
def addmJrows (n N : Nat) (m : Vec K) (J W : Mat K) (ju : Nat → Mat K) (s : St K) : St K :=
  let temp := Ops.mulMM n N N (Mat.T J) W (ju 0)
  { s with
    C := plusEqM n n 0 0 (Ops.mulMM n N n temp J (ju 1)) s.C
    v := plusEqV n 0 (Ops.mulMV n N temp m (ju 2 0)) s.v }

/-- `add_sparse_mJ(m, J1, index1, weight)` (wls.h:155-166) -/
def addSparse (k : Nat) (m : K) (J1 : Vec K) (index1 : Nat) (weight : K) (s : St K) : St K :=
  addUpper k index1 m J1 weight s

/-- `add_sparse_mJ_rows(m, J1, index1, invcov)` (wls.h:174-181); `J1` is `N × S1` -/
def addSparseRows (N S1 : Nat) (m : Vec K) (J1 : Mat K) (index1 : Nat) (W : Mat K) (ju : Nat → Mat K)
    (s : St K) : St K :=
  let temp1 := Ops.mulMM S1 N N (Mat.T J1) W (ju 0)
  { s with
    C := plusEqM S1 S1 index1 index1 (Ops.mulMM S1 N S1 temp1 J1 (ju 1)) s.C
    v := plusEqV S1 index1 (Ops.mulMV S1 N temp1 m (ju 2 0)) s.v }

/-- `add_sparse_mJ_rows(m, J1, index1, J2, index2, invcov)` (wls.h:191-206) -/
def addSparseRows2 (N S1 S2 : Nat) (m : Vec K) (J1 : Mat K) (index1 : Nat) (J2 : Mat K) (index2 : Nat)
    (W : Mat K) (ju : Nat → Mat K) (s : St K) : St K :=
  let temp1 := Ops.mulMM S1 N N (Mat.T J1) W (ju 0)
  let temp2 := Ops.mulMM S2 N N (Mat.T J2) W (ju 1)
  let mixed := Ops.mulMM S1 N S2 temp1 J2 (ju 2)
  let C := plusEqM S1 S1 index1 index1 (Ops.mulMM S1 N S1 temp1 J1 (ju 3)) s.C
  let C := plusEqM S2 S2 index2 index2 (Ops.mulMM S2 N S2 temp2 J2 (ju 4)) C
  let C := plusEqM S1 S2 index1 index2 mixed C
  let C := plusEqM S2 S1 index2 index1 (Mat.T mixed) C
  let v := plusEqV S1 index1 (Ops.mulMV S1 N temp1 m (ju 5 0)) s.v
  let v := plusEqV S2 index2 (Ops.mulMV S2 N temp2 m (ju 6 0)) v
  { s with C := C, v := v }

/-- copy of the upper triangle to the lower (wls.h:213-215) -/
def mirror (n : Nat) (C : Mat K) : Mat K :=
  forRange 1 n (fun r C => forN r (fun c C => Mat.set C r c (C c r)) C) C

/-- `compute()` (wls.h:210-219) with `Decomposition = Cholesky`; `u`, `w` uninitialised contents inside
`backsub` -/
def compute (n : Nat) (u w : Vec K) (s : St K) : St K :=
  let C := mirror n s.C
  { s with C := C, mu := Chol.backsub n (Chol.compute n C).1 s.v u w }

/-- `operator+=` (wls.h:223-226).  Reading `meas` before the updates is the same as the elementwise reads
even for `w += w`, since each element is read once, just before it is written. -/
def plusEq (n : Nat) (meas : St K) (s : St K) : St K :=
  { s with C := plusEqM n n 0 0 meas.C s.C, v := plusEqV n 0 meas.v s.v }

/-- `WLS(size)` (wls.h:50-57): members uninitialised, then `clear()` -/
def construct (n : Nat) (C0 : Mat K) (v0 : Vec K) : St K := clear n { C := C0, v := v0, mu := none }

end TooN.WLS
