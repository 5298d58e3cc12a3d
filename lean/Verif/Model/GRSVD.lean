import Verif.Model.SVD
import Mathlib.Analysis.Real.Sqrt
/-!
# GR_SVD.h: Golub-Reinsch singular value decomposition

Exact real arithmetic, except that the test `abs(x) + anorm == anorm`, which is where floating point decides that an entry is
negligible, is a parameter `negl anorm |x|` (in exact arithmetic it is `x = 0`).  `none` stands for a division by zero, for
the `throw(0)` at the end of `Diagonalize_SubLoop`, and for reading `vDiagonal[-1]`.  `M` and `N` are the static sizes (`N ≥ 1`);
the members are uninitialised at the start, so the initial contents are parameters.
-/
namespace TooN.GRSVD
open scoped Classical
noncomputable section

/-- `scale += abs(..)` (GR_SVD.h:175-176, 210-211) for the column `j` of `X`, rows `lo … hi-1` -/
def scaleOf (lo hi j : Nat) (X : Mat ℝ) : ℝ := forRange lo hi (fun k a => a + |X k j|) 0

/-- column divided by `scale`, and its sum of squares (GR_SVD.h:179-183, 214-218) -/
def normalise (lo hi j : Nat) (scale : ℝ) (X : Mat ℝ) : Mat ℝ × ℝ :=
  forRange lo hi (fun k st =>
    let X := Mat.set st.1 k j (st.1 k j / scale)
    (X, st.2 + X k j * X k j)) (X, 0)

/-- `mU[k][i] *= scale` (GR_SVD.h:200-201, 236-237) -/
def rescale (lo hi j : Nat) (scale : ℝ) (X : Mat ℝ) : Mat ℝ :=
  forRange lo hi (fun k X => Mat.set X k j (X k j * scale)) X

/-- `-(f>=0?sqrt(s):-sqrt(s))` (GR_SVD.h:185, 220) -/
def signedRoot (f s : ℝ) : ℝ := -(if f ≥ 0 then Real.sqrt s else -Real.sqrt s)

/-- the column half of an iteration of `Bidiagonalize` (GR_SVD.h:170-204): `mU`, `scale`, `g` -/
def leftHalf (M N i : Nat) (U : Mat ℝ) : Option (Mat ℝ × ℝ × ℝ) :=
  if i < M then
    let scale := scaleOf i M i U
    if scale ≠ 0 then
      let ns := normalise i M i scale U
      let U := ns.1
      let s := ns.2
      let f := U i i
      let g := signedRoot f s
      let h := f * g - s
      let U := Mat.set U i i (f - g)
      let upd : Option (Mat ℝ) :=
        if i ≠ N - 1 then
          if h = 0 then none else
          some (forRange (i + 1) N (fun j U =>
            let s := forRange i M (fun k s => s + U k i * U k j) 0
            let f := s / h
            forRange i M (fun k U => Mat.set U k j (U k j + f * U k i)) U) U)
        else some U
      upd.bind fun U => some (rescale i M i scale U, scale, g)
    else some (U, scale, 0)
  else some (U, 0, 0)

/-- the row half of an iteration (GR_SVD.h:205-239): `mU`, `vOffDiagonal`, `scale`, `g`.  The row operations are the column
operations of `leftHalf` on the transpose (`mU[i][k]` is `X k i` for `X = mU.T()`). -/
def rightHalf (M N i : Nat) (U : Mat ℝ) (e : Vec ℝ) : Option (Mat ℝ × Vec ℝ × ℝ × ℝ) :=
  if ¬ (i ≥ M ∨ i = N - 1) then
    let l := i + 1
    let scale := scaleOf l N i U.T
    if scale ≠ 0 then
      let ns := normalise l N i scale U.T
      let U := ns.1.T
      let s := ns.2
      let f := U i l
      let g := signedRoot f s
      let h := f * g - s
      let U := Mat.set U i l (f - g)
      if h = 0 then none else
      let e := forRange l N (fun k e => Vec.set e k (U i k / h)) e
      let U :=
        if i ≠ M - 1 then
          forRange l M (fun j U =>
            let s := forRange l N (fun k s => s + U j k * U i k) 0
            forRange l N (fun k U => Mat.set U j k (U j k + s * e k)) U) U
        else U
      some ((rescale l N i scale U.T).T, e, scale, g)
    else some (U, e, scale, 0)
  else some (U, e, 0, 0)

/-- the variables of `Bidiagonalize` (GR_SVD.h:163-165) -/
structure BSt where
  U : Mat ℝ
  d : Vec ℝ
  e : Vec ℝ
  g : ℝ
  scale : ℝ
  anorm : ℝ

/-- one iteration of the loop of `Bidiagonalize` (GR_SVD.h:166-241) -/
def bidiagStep (M N i : Nat) (b : BSt) : Option BSt :=
  let e := Vec.set b.e i (b.scale * b.g)
  (leftHalf M N i b.U).bind fun lh =>
  let d := Vec.set b.d i (lh.2.1 * lh.2.2)
  (rightHalf M N i lh.1 e).bind fun rh =>
  some { U := rh.1, d := d, e := rh.2.1, scale := rh.2.2.1, g := rh.2.2.2,
         anorm := max b.anorm (|d i| + |rh.2.1 i|) }

/-- `Bidiagonalize()` (GR_SVD.h:157-244) -/
def bidiagonalize (M N : Nat) (A : Mat ℝ) (d0 e0 : Vec ℝ) : Option BSt :=
  forNM N (bidiagStep M N) { U := A, d := d0, e := e0, g := 0, scale := 0, anorm := 0 }

/-- one iteration of the loop of `Accumulate_RHS` (GR_SVD.h:256-276); `g` is `vOffDiagonal[i+1]` at this point -/
def rhsStep (N : Nat) (U : Mat ℝ) (e : Vec ℝ) (i : Nat) (V : Mat ℝ) : Option (Mat ℝ) :=
  let l := i + 1
  let g := e l
  let upd : Option (Mat ℝ) :=
    if g ≠ 0 then
      if U i l = 0 then none else
      let V := forRange l N (fun j V => Mat.set V j i ((U i j / U i l) / g)) V
      some (forRange l N (fun j V =>
        let s := forRange l N (fun k s => s + U i k * V k j) 0
        forRange l N (fun k V => Mat.set V k j (V k j + s * V k i)) V) V)
    else some V
  upd.bind fun V =>
  let V := forRange l N (fun j V => Mat.set (Mat.set V j i 0) i j 0) V
  some (Mat.set V i i 1)

/-- `Accumulate_RHS()` (GR_SVD.h:247-277) -/
def accumulateRHS (N : Nat) (U : Mat ℝ) (e : Vec ℝ) (V0 : Mat ℝ) : Option (Mat ℝ) :=
  forDownM (N - 1) (rhsStep N U e) (Mat.set V0 (N - 1) (N - 1) 1)

/-- one iteration of the loop of `Accumulate_LHS` (GR_SVD.h:284-315) -/
def lhsStep (M N : Nat) (d : Vec ℝ) (i : Nat) (U : Mat ℝ) : Option (Mat ℝ) :=
  let l := i + 1
  let g := d i
  let U := if i ≠ N - 1 then forRange l N (fun j U => Mat.set U i j 0) U else U
  let upd : Option (Mat ℝ) :=
    if g = 0 then some (forRange i M (fun j U => Mat.set U j i 0) U)
    else
      let invg := 1 / g
      let upd : Option (Mat ℝ) :=
        if i ≠ min M N - 1 then
          if U i i = 0 then none else
          some (forRange l N (fun j U =>
            let s := forRange l M (fun k s => s + U k i * U k j) 0
            let f := (s / U i i) * invg
            forRange i M (fun k U => Mat.set U k j (U k j + f * U k i)) U) U)
        else some U
      upd.bind fun U => some (forRange i M (fun j U => Mat.set U j i (U j i * invg)) U)
  upd.bind fun U => some (Mat.set U i i (U i i + 1))

/-- `Accumulate_LHS()` (GR_SVD.h:280-316) -/
def accumulateLHS (M N : Nat) (d : Vec ℝ) (U : Mat ℝ) : Option (Mat ℝ) :=
  forDownM (min M N) (lhsStep M N d) U

/-- the object during `Diagonalize` -/
structure St where
  U : Mat ℝ
  V : Mat ℝ
  d : Vec ℝ
  e : Vec ℝ
  nError : Nat
  nIter : Nat

/-- rotation of columns `p` and `q` (GR_SVD.h:378-383, 428-433, 445-450) of a matrix with `R` rows -/
def rotCols (R p q : Nat) (c s : ℝ) (X : Mat ℝ) : Mat ℝ :=
  forN R (fun j X =>
    let y := X j p
    let z := X j q
    Mat.set (Mat.set X j p (y * c + z * s)) j q (-y * s + z * c)) X

section
variable (M N : Nat) (wantU wantV : Bool) (negl : ℝ → Prop)

/-- the cancellation loop at `line_540` (GR_SVD.h:361-385); the first argument is the number `k + 1 - i` of iterations left -/
def cancelLoop (l1 : Nat) : Nat → Nat → ℝ → ℝ → St → Option St
  | 0, _, _, _, st => some st
  | n + 1, i, c, s, st =>
    let f := s * st.e i
    let st := { st with e := Vec.set st.e i (st.e i * c) }
    if negl |f| then some st else
    let g := st.d i
    let h := Real.sqrt (f * f + g * g)
    if h = 0 then none else
    let c := g / h
    let s := -f / h
    let U := if wantU then rotCols M l1 i c s st.U else st.U
    cancelLoop l1 n (i + 1) c s { st with d := Vec.set st.d i h, U := U }

/-- the variables of the QR sweep -/
structure Sw where
  st : St
  f : ℝ
  x : ℝ
  c : ℝ
  s : ℝ

/-- one iteration of the QR sweep (GR_SVD.h:411-451) -/
def sweepStep (i1 : Nat) (w : Sw) : Option Sw :=
  let i := i1 + 1
  let g := w.st.e i
  let y := w.st.d i
  let h := w.s * g
  let g := w.c * g
  let z := Real.sqrt (w.f * w.f + h * h)
  if z = 0 then none else
  let e := Vec.set w.st.e i1 z
  let c := w.f / z
  let s := h / z
  let f := w.x * c + g * s
  let g := -w.x * s + g * c
  let h := y * s
  let y := y * c
  let V := if wantV then rotCols N i1 i c s w.st.V else w.st.V
  let z := Real.sqrt (f * f + h * h)
  let d := Vec.set w.st.d i1 z
  let c' := if z ≠ 0 then f / z else c
  let s' := if z ≠ 0 then h / z else s
  let f := c' * g + s' * y
  let x := -s' * g + c' * y
  let U := if wantU then rotCols M i1 i c' s' w.st.U else w.st.U
  some { st := { w.st with U := U, V := V, d := d, e := e }, f := f, x := x, c := c', s := s' }

/-- the code at `line_565` (GR_SVD.h:387-457): `(true, z, _)` = converged or error, `(false, _, _)` = a sweep was made -/
def line565 (l k : Nat) (st : St) : Option (Bool × ℝ × St) :=
  let z := st.d k
  if l = k then some (true, z, st) else
  if st.nIter = 30 then some (true, z, { st with nError := k }) else
  let st := { st with nIter := st.nIter + 1 }
  let k1 := k - 1
  let x := st.d l
  let y := st.d k1
  let g := st.e k1
  let h := st.e k
  if 2 * h * y = 0 then none else
  let f := ((y - z) * (y + z) + (g - h) * (g + h)) / (2 * h * y)
  let g := Real.sqrt (f * f + 1)
  let signed_g := if f ≥ 0 then g else -g
  if f + signed_g = 0 then none else
  if x = 0 then none else
  let f := ((x - z) * (x + z) + h * (y / (f + signed_g) - h)) / x
  (forRangeM l k (sweepStep M N wantU wantV) { st := st, f := f, x := x, c := 1, s := 1 }).bind fun w =>
  let e := Vec.set (Vec.set w.st.e l 0) k w.f
  some (false, z, { w.st with e := e, d := Vec.set w.st.d k w.x })

/-- the search over `l` in `Diagonalize_SubLoop(k, z)` (GR_SVD.h:346-462); the first argument is `l + 1` -/
def searchFrom (k : Nat) : Nat → St → Option (Bool × ℝ × St)
  | 0, _ => none
  | l + 1, st =>
    if negl |st.e l| then line565 M N wantU wantV l k st
    else if l = 0 then none
    else if negl |st.d (l - 1)| then
      (cancelLoop M wantU negl (l - 1) (k + 1 - l) l 0 1 st).bind (line565 M N wantU wantV l k)
    else searchFrom k l st

/-- the `do … while` loop of `Diagonalize` (GR_SVD.h:327-329); the first argument bounds the number of calls -/
def iterateK (k : Nat) : Nat → St → Option (ℝ × St)
  | 0, _ => none
  | n + 1, st =>
    match searchFrom M N wantU wantV negl k (k + 1) st with
    | none => none
    | some (true, z, st) => some (z, st)
    | some (false, _, st) => iterateK k n st

/-- `Diagonalize()` (GR_SVD.h:319-342), for `k` = first argument - 1 downwards -/
def diagonalize (fuel : Nat) : Nat → St → Option St
  | 0, st => some st
  | k + 1, st =>
    (iterateK M N wantU wantV negl k fuel { st with nIter := 0 }).bind fun (z, st) =>
    if st.nError ≠ 0 then some st else
    let st := if z < 0 then
        { st with d := Vec.set st.d k (-z),
                  V := if wantV then forN N (fun j V => Mat.set V j k (-V j k)) st.V else st.V }
      else st
    diagonalize fuel k st
end

/-- the constructor `GR_SVD(mA)` (GR_SVD.h:146-154) -/
def svd (M N : Nat) (wantU wantV : Bool) (negl : ℝ → ℝ → Prop) (fuel : Nat) (A : Mat ℝ) (d0 e0 : Vec ℝ) (V0 : Mat ℝ) : Option St :=
  (bidiagonalize M N A d0 e0).bind fun b =>
  (accumulateRHS N b.U b.e V0).bind fun V =>
  (accumulateLHS M N b.d b.U).bind fun U =>
  diagonalize M N wantU wantV (negl b.anorm) fuel N { U := U, V := V, d := b.d, e := b.e, nError := 0, nIter := 0 }

/-- `get_largest_singular_value()` (GR_SVD.h:466-472) -/
def largest (N : Nat) (d : Vec ℝ) : ℝ := forRange 1 N (fun i m => max m (d i)) (d 0)

/-- `get_smallest_singular_value()` (GR_SVD.h:475-481) -/
def smallest (N : Nat) (d : Vec ℝ) : ℝ := forRange 1 N (fun i m => min m (d i)) (d 0)

/-- `get_smallest_singular_value_index()` (GR_SVD.h:484-496) -/
def smallestIndex (N : Nat) (d : Vec ℝ) : Nat :=
  (forRange 1 N (fun i (st : Nat × ℝ) => if d i < st.2 then (i, d i) else st) (0, d 0)).1

/-- `get_inv_diag(inv_diag, condition)` (GR_SVD.h:80-86) into a vector with contents `u`; a division by zero is `none` -/
def getInvDiag (N : Nat) (d : Vec ℝ) (condition : ℝ) (u : Vec ℝ) : Option (Vec ℝ) :=
  let dMax := largest N d
  forNM N (fun i inv =>
    if d i * condition > dMax then (if d i = 0 then none else some (Vec.set inv i (1 / d i)))
    else some (Vec.set inv i 0)) u

/-- `backsub(Matrix)` (GR_SVD.h:92-99), `c2` columns -/
def backsubM (M N : Nat) (st : St) (condition : ℝ) (c2 : Nat) (rhs : Mat ℝ) (j : SVD.Junk ℝ) : Option (Mat ℝ) :=
  (getInvDiag N st.d condition j.v1).map fun inv =>
    Ops.mulMM N N c2 st.V (Ops.diagmultVM N c2 inv (Ops.mulMM N M c2 (Mat.T st.U) rhs j.m1) j.m2) j.m3

/-- `backsub(Vector)` (GR_SVD.h:105-112) -/
def backsubV (M N : Nat) (st : St) (condition : ℝ) (rhs : Vec ℝ) (j : SVD.Junk ℝ) : Option (Vec ℝ) :=
  (getInvDiag N st.d condition j.v1).map fun inv =>
    Ops.mulMV N N st.V (Ops.diagmultVV N inv (Ops.mulMV N M (Mat.T st.U) rhs j.v2) j.v3) j.v3

/-- `get_pinv(condition)` (GR_SVD.h:115-120) -/
def getPinv (M N : Nat) (st : St) (condition : ℝ) (j : SVD.Junk ℝ) : Option (Mat ℝ) :=
  (getInvDiag N st.d condition j.v1).map fun inv =>
    Ops.mulMM N N M (Ops.diagmultMV N N st.V inv j.m1) (Mat.T st.U) j.m2

/-- comparison of `std::pair<Precision, unsigned>` (GR_SVD.h:505) -/
def pairLe (a b : ℝ × Nat) : Bool := decide (a.1 < b.1 ∨ a.1 = b.1 ∧ a.2 ≤ b.2)

/-- the sorted `vSort` (GR_SVD.h:501-505).  `std::sort` is modelled by a stable merge sort; since the pairs are distinct and
totally ordered, any correct sorting algorithm gives this list. -/
def sorted (N : Nat) (d : Vec ℝ) : List (ℝ × Nat) := ((List.range N).map fun i => (-d i, i)).mergeSort pairLe

/-- `reorder()` (GR_SVD.h:499-520) -/
def reorder (M N : Nat) (wantU wantV : Bool) (st : St) : St :=
  let vs := sorted N st.d
  let d := forN N (fun i d => Vec.set d i (-(vs.getD i (0, 0)).1)) st.d
  let U := if wantU then forN N (fun i U => forN M (fun r U => Mat.set U r i (st.U r (vs.getD i (0, 0)).2)) U) st.U else st.U
  let V := if wantV then forN N (fun i V => forN N (fun r V => Mat.set V r i (st.V r (vs.getD i (0, 0)).2)) V) st.V else st.V
  { st with d := d, U := U, V := V }

end
end TooN.GRSVD
