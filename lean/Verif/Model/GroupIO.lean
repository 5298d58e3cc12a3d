import Verif.Model.Stream
import Verif.Model.SE
import Verif.Model.SL
import Verif.Spec.Linear
/-!
# Stream output and input of the transformation classes

Streams as in `Model/Stream.lean`: a stream is a list of characters, `none` is `failbit`, the scalar formatting and
parsing are parameters.  The storage of an object is `Nat`-indexed (`Mat`, `Vec`); `asM`/`asV` read it as a fixed-size
matrix.  What happens to the target after `failbit` (it is still passed to `coerce`) is not modelled.
-/
namespace TooN.GroupIO
open TooN.Stream TooN.Lie
open scoped Classical
noncomputable section

/-- `os << SO2` (so2.h:138-140), `os << SO3` (so3.h:193-195), `os << SL` (sl.h:211-214): the matrix -/
def write (fmt : ℝ → List Char) (fw n : Nat) (m : Mat ℝ) (os : List Char) : List Char := writeMat fmt fw n n m os

/-- `is >> SO2` (so2.h:145-149): the elements into `my_matrix`, then `coerce()`.  Inner `none`: division by zero. -/
def so2Read (parse : List Char → Option ℝ) (m : Mat ℝ) (is : List Char) : Option (Option (M 2) × List Char) :=
  (readMat parse 2 2 m is).bind fun (m, is) => some (coerce2 (asM 2 2 m), is)

/-- `is >> SO3` (so3.h:200-204) -/
def so3Read (parse : List Char → Option ℝ) (m : Mat ℝ) (is : List Char) :
    Option (Option (Outcome (M 3)) × List Char) :=
  (readMat parse 3 3 m is).bind fun (m, is) => some (coerce3 (asM 3 3 m), is)

/-- `is >> SL<N>` (sl.h:217-221) -/
def slRead (parse : List Char → Option ℝ) (N : Nat) (m : Mat ℝ) (is : List Char) :
    Option (Outcome (Option (Mat ℝ)) × List Char) :=
  (readMat parse N N m is).bind fun (m, is) => some (SL.coerce N m, is)

/-- `os << SE2` (se2.h:145-154), `os << SE3` (se3.h:225-234): for every row, the row as a vector, the translation
coordinate, a newline.  `fw` is the width found at entry; it is set again before each of the two items. -/
def seWrite (fmt : ℝ → List Char) (fw n : Nat) (R : Mat ℝ) (t : Vec ℝ) (os : List Char) : List Char :=
  forN n (fun i os => writeVec fmt fw n (R i) os ++ pad fw (fmt (t i)) ++ ['\n']) os

/-- the loop of `is >> SE2` (se2.h:160-161), `is >> SE3` (se3.h:241-243): a row of the rotation, then a translation
coordinate -/
def seReadRows (parse : List Char → Option ℝ) (n : Nat) (R : Mat ℝ) (t : Vec ℝ) (is : List Char) :
    Option ((Mat ℝ × Vec ℝ) × List Char) :=
  forNM n (fun i st => (readVec parse n (st.1.1 i) st.2).bind fun (row, is) =>
    (readScalar parse is).bind fun (x, is) =>
      some ((fun r c => if r = i then row c else st.1.1 r c, Vec.set st.1.2 i x), is)) ((R, t), is)

/-- `is >> SE2` (se2.h:159-164) -/
def se2Read (parse : List Char → Option ℝ) (R : Mat ℝ) (t : Vec ℝ) (is : List Char) :
    Option (Option (SE 2) × List Char) :=
  (seReadRows parse 2 R t is).bind fun ((R, t), is) => some ((coerce2 (asM 2 2 R)).map fun r => ⟨r, asV 2 t⟩, is)

/-- `is >> SE3` (se3.h:240-246) -/
def se3Read (parse : List Char → Option ℝ) (R : Mat ℝ) (t : Vec ℝ) (is : List Char) :
    Option (Option (Outcome (SE 3)) × List Char) :=
  (seReadRows parse 3 R t is).bind fun ((R, t), is) =>
    some ((coerce3 (asM 3 3 R)).map fun o => match o with
      | .ok r => .ok ⟨r, asV 3 t⟩
      | .abort => .abort
      | .ub => .ub, is)

end
end TooN.GroupIO
