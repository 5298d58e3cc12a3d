import Verif.Model.Ops
import Mathlib.Analysis.Real.Sqrt
/-!
# QR.h: Householder QR, real arithmetic

`R` rows, `C` columns, `sq = min R C`.  Division by a zero `H` is `none` (in floating point: NaNs).
-/
namespace TooN.QR
open scoped Classical
noncomputable section

/-- `pre_multiply_by_householder(A, v, s)` (QR.h:86-114) on the `sz × nc` block of `A` at `(r0, c0)`; `v` is a view
of a column outside the block (`c0 = n+1`) or of another matrix, so it is constant during the call. -/
def premul (sz nc r0 c0 : Nat) (v : Vec ℝ) (s : ℝ) (A : Mat ℝ) : Mat ℝ :=
  forN nc (fun col A =>
    let va := Ops.dot sz v (fun row => A (r0 + row) (c0 + col)) / s
    forN sz (fun row A => Mat.set A (r0 + row) (c0 + col) (A (r0 + row) (c0 + col) - v row * va)) A) A

structure St where
  m : Mat ℝ
  Q : Mat ℝ

/-- body of the main loop (QR.h:133-213); `none` = division by `H = 0` (line 109, reached through 205 since
`Q` has at least one column) -/
def step (C sq n : Nat) (st : St) : Option St :=
  let sz := sq - n
  let nc := C - n
  let m := st.m
  let nx2 := Ops.dot sz (fun i => m (n + i) n) (fun i => m (n + i) n)
  let a := Real.sqrt nx2 * (if m n n < 0 then -1 else 1)
  let m := Mat.set m n n (m n n - a)
  let H := -a * m n n
  if H = 0 then none else
  let u : Vec ℝ := fun i => m (n + i) n
  let m := premul sz (nc - 1) n (n + 1) u H m
  let Q := premul sz sq n 0 u H st.Q
  let m := Mat.set m n n a
  let m := forRange 1 sz (fun i m => Mat.set m (n + i) n 0) m
  some ⟨m, Q⟩

/-- the final in-place transposition (QR.h:218-221) -/
def transposeLoop (sq : Nat) (Q : Mat ℝ) : Mat ℝ :=
  forN sq (fun r Q => forRange (r+1) sq (fun c Q =>
    let t := Q r c
    let Q' := Mat.set Q r c (Q c r)
    Mat.set Q' c r t) Q) Q

/-- constructor and `compute()` (QR.h:62-69, 116-223): `m(m_)`, `Q(Identity(square_size()))` -/
def compute (R C : Nat) (A : Mat ℝ) : Option St :=
  let sq := min R C
  (forNM (sq - 1) (step C sq) ⟨A, fun r c => if r = c then 1 else 0⟩).bind fun st =>
    some ⟨st.m, transposeLoop sq st.Q⟩

end
end TooN.QR
