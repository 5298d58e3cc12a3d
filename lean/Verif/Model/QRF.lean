import Verif.Model.Ops
/-!
# QR.h for an arbitrary element type

The same code as `Model/QR.lean`, using nothing but the operations of the element type, so that it can be run on the rounded
numbers `Fl ρ`.  `sqrt` is `std::sqrt`.  `step`/`compute` stop with `none` at a division by zero; `run` does not test for it (IEEE
arithmetic goes on with infinities and NaNs).
-/
namespace TooN.QRF
variable {K : Type _} [Zero K] [One K] [Add K] [Sub K] [Mul K] [Div K] [Neg K] [LT K] [DecidableLT K]

/-- `pre_multiply_by_householder(A, v, s)` (QR.h:86-114), see `QR.premul` -/
def premul (sz nc r0 c0 : Nat) (v : Vec K) (s : K) (A : Mat K) : Mat K :=
  forN nc (fun col A =>
    let va := Ops.dot sz v (fun row => A (r0 + row) (c0 + col)) / s
    forN sz (fun row A => Mat.set A (r0 + row) (c0 + col) (A (r0 + row) (c0 + col) - v row * va)) A) A

/-- the members `m` and `Q` (QR.h:225-226) -/
structure St (K : Type _) where
  m : Mat K
  Q : Mat K

/-- `a = sqrt(nx2) * (s.T()[0][0] < 0 ? -1 : 1)` (QR.h:156-158) -/
def pivot (sqrt : K → K) (sq n : Nat) (m : Mat K) : K :=
  sqrt (Ops.dot (sq - n) (fun i => m (n + i) n) (fun i => m (n + i) n)) * (if m n n < 0 then -1 else 1)

/-- `s.T()[0][0] -= a` (QR.h:166) -/
def reflect (sqrt : K → K) (sq n : Nat) (m : Mat K) : Mat K := Mat.set m n n (m n n - pivot sqrt sq n m)

/-- `H = -a * s.T()[0][0]` (QR.h:170) -/
def heightOf (sqrt : K → K) (sq n : Nat) (m : Mat K) : K := -pivot sqrt sq n m * reflect sqrt sq n m n n

/-- body of the main loop (QR.h:133-213) -/
def stepRun (sqrt : K → K) (C sq n : Nat) (st : St K) : St K :=
  let sz := sq - n
  let nc := C - n
  let a := pivot sqrt sq n st.m
  let m := reflect sqrt sq n st.m
  let H := heightOf sqrt sq n st.m
  let u : Vec K := fun i => m (n + i) n
  let m := premul sz (nc - 1) n (n + 1) u H m
  let Q := premul sz sq n 0 u H st.Q
  let m := Mat.set m n n a
  let m := forRange 1 sz (fun i m => Mat.set m (n + i) n 0) m
  ⟨m, Q⟩

/-- body of the main loop; `none` = division by `H = 0` (QR.h:109) -/
def step [DecidableEq K] (sqrt : K → K) (C sq n : Nat) (st : St K) : Option (St K) :=
  if heightOf sqrt sq n st.m = 0 then none else some (stepRun sqrt C sq n st)

/-- the final in-place transposition (QR.h:218-221) -/
def transposeLoop (sq : Nat) (Q : Mat K) : Mat K :=
  forN sq (fun r Q => forRange (r+1) sq (fun c Q =>
    let t := Q r c
    let Q' := Mat.set Q r c (Q c r)
    Mat.set Q' c r t) Q) Q

/-- `m(m_)`, `Q(Identity(square_size()))` (QR.h:62-64) -/
def start (A : Mat K) : St K := ⟨A, fun r c => if r = c then 1 else 0⟩

/-- constructor and `compute()` (QR.h:62-69, 116-223) -/
def compute [DecidableEq K] (sqrt : K → K) (R C : Nat) (A : Mat K) : Option (St K) :=
  let sq := min R C
  (forNM (sq - 1) (step sqrt C sq) (start A)).bind fun st => some ⟨st.m, transposeLoop sq st.Q⟩

end TooN.QRF
