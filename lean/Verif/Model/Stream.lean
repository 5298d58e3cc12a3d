import Verif.Model.Loop
/-!
# Stream output and input of vectors and matrices (operators.hh:663-714)

A stream is a list of characters.  The scalar formatting (`os << x`) and the scalar parsing (of one
whitespace-delimited word) are parameters.  `istream >> x` skips leading whitespace and consumes the
following word; this models scalars whose written form is followed by whitespace, as is the case
for everything TooN writes.  Fill character is the blank, adjustment right (the defaults).
-/
namespace TooN.Stream
variable {K : Type _}

/-- whitespace characters produced by TooN output -/
def isWs (c : Char) : Bool := c == ' ' || c == '\n'

/-- `os.width(fw); os << s` : pad on the left with blanks up to the width. -/
def pad (fw : Nat) (s : List Char) : List Char := List.replicate (fw - s.length) ' ' ++ s

/-- `os << v` (operators.hh:669-677): every element padded, then a blank. -/
def writeVec (fmt : K → List Char) (fw n : Nat) (v : Vec K) (os : List Char) : List Char :=
  forN n (fun i os => os ++ pad fw (fmt (v i)) ++ [' ']) os

/-- `os << m` (operators.hh:688-703). -/
def writeMat (fmt : K → List Char) (fw R C : Nat) (m : Mat K) (os : List Char) : List Char :=
  forN R (fun i os => forN C (fun j os =>
    (if j ≠ 0 then os ++ [' '] else os) ++ pad fw (fmt (m i j))) os ++ ['\n']) os

/-- `is >> x` for one scalar: skip whitespace, take the word, parse it.  `none` = failbit. -/
def readScalar (parse : List Char → Option K) (is : List Char) : Option (K × List Char) :=
  let is := is.dropWhile isWs
  let w := is.takeWhile (fun c => !isWs c)
  (parse w).bind fun x => some (x, is.dropWhile (fun c => !isWs c))

/-- `is >> v` (operators.hh:680-686); the state is (vector, rest of stream).  Once `failbit` is set all
further reads fail, so failure is absorbing. -/
def readVec (parse : List Char → Option K) (n : Nat) (v : Vec K) (is : List Char) :
    Option (Vec K × List Char) :=
  forNM n (fun i st => (readScalar parse st.2).bind fun (x, is) => some (Vec.set st.1 i x, is)) (v, is)

/-- `is >> m` (operators.hh:706-714). -/
def readMat (parse : List Char → Option K) (R C : Nat) (m : Mat K) (is : List Char) :
    Option (Mat K × List Char) :=
  forNM R (fun r st => forNM C (fun c st =>
    (readScalar parse st.2).bind fun (x, is) => some (Mat.set st.1 r c x, is)) st) (m, is)

end TooN.Stream
