import Verif.Model.Loop
/-!
# `Fill(v) = a, b, c` and `Data(...)` / `makeVector(...)`

The expression `Fill(v) = x0, x1, …` builds a chain of temporaries `VectorFiller<1>`, `<2>`, …;
at the end of the full expression they are destroyed newest first.  `Res` distinguishes the
documented diagnostics.  Static overfill (compile error, `Internal::overfill<1>` is incomplete) and
dynamic overfill (abort) are both `overfilled`.  Assumed: temporaries are constructed in place (copy
elision, guaranteed since C++17), `TOON_NDEBUG_FILL` not defined.
-/
namespace TooN.Fill
variable {K : Type _}

inductive Res (α : Type _) where
  | ok (a : α) | overfilled | underfilled | ub
  deriving Repr, DecidableEq

/-- Destruction of the chain of fillers, newest first: `~VectorFiller` (comma.hh:50-65) and
`~MatrixFiller` (comma.hh:108-123).  `flags` are the `underfill` members, newest first.
Returns whether all destructors complete without the underfill abort. -/
def destroyFrom (underfill : Bool) : List Bool → Bool
  | [] => !underfill
  | _ :: rest => if underfill then false else destroyFrom false rest   -- `parent->underfill = 0`

/-- the whole chain -/
def destroy : List Bool → Bool
  | [] => true
  | f :: rest => destroyFrom f rest

/-- `VectorFiller<N>::operator,` applied to the remaining values (comma.hh:43-48; check
overfill_error.hh:32-62: fails iff `N >= size`).  `flags` = `underfill` members so far. -/
def vecMore (n : Nat) : Nat → List K → Vec K → List Bool → Res (Vec K)
  | _, [], v, flags => if destroy flags then .ok v else .underfilled
  | N, p :: ps, v, flags =>
    if N ≥ n then .overfilled
    else vecMore n (N+1) ps (Vec.set v N p) (decide (N+1 < n) :: flags)

/-- `Fill(v) = x, xs…` for a vector of size `n` (comma.hh:74-79): note `CheckOverFill<1, Size>`. -/
def fillVector (n : Nat) (x : K) (xs : List K) (v : Vec K) : Res (Vec K) :=
  if 1 ≥ n then .overfilled
  else vecMore n 1 xs (Vec.set v 0 x) [decide (1 < n)]

/-- `MatrixFiller<N>::operator,` (comma.hh:94-106).  Writing `m[r][c]` with `c ≥ cols` or `r ≥ rows`
is outside the row/matrix and is undefined. -/
def matMore (R C : Nat) : Nat → Nat → Nat → List K → Mat K → List Bool → Res (Mat K)
  | _, _, _, [], m, flags => if destroy flags then .ok m else .underfilled
  | N, r, c, p :: ps, m, flags =>
    if N ≥ R * C then .overfilled
    else if ¬ (r < R ∧ c < C) then .ub
    else
      let m := Mat.set m r c p
      let c := c + 1
      if c = C then matMore R C (N+1) (r+1) 0 ps m (decide (r+1 < R) :: flags)
      else matMore R C (N+1) r c ps m (decide (r < R) :: flags)

/-- `Fill(m) = x, xs…` (comma.hh:132-137): the first filler gets `r = 0, c = 1`. -/
def fillMatrix (R C : Nat) (x : K) (xs : List K) (m : Mat K) : Res (Mat K) :=
  if 0 ≥ R * C then .overfilled
  else matMore R C 1 0 1 xs (Mat.set m 0 0 x) [decide (0 < R)]

/-- static size parameter of a matrix dimension: `none` is `Dynamic` (`-1`). -/
abbrev SSize := Option Nat

/-- `Operator<Data<N,P>>::eval(Matrix)` (data.hh:42-49): size test on `rows*cols`, then the loops
run over the *template* parameters `R`, `C`, i.e. over `r < -1` for Dynamic. `n` is the running index. -/
def dataEvalM (R C : SSize) (rows cols : Nat) (vals : List K) (dflt : K) (m : Mat K) : Outcome (Mat K) :=
  if rows * cols ≠ vals.length then .abort
  else
    let RR := R.getD 0    -- `r < -1` is never true
    let CC := C.getD 0
    .ok (forN RR (fun r (st : Mat K × Nat) =>
      forN CC (fun c (st : Mat K × Nat) => (Mat.set st.1 r c (vals.getD st.2 dflt), st.2 + 1)) st) (m, 0)).1

/-- `Operator<Data<N,P>>::eval(Vector)` (data.hh:51-57). -/
def dataEvalV (size : Nat) (vals : List K) (dflt : K) (v : Vec K) : Outcome (Vec K) :=
  if size ≠ vals.length then .abort
  else .ok (forN vals.length (fun i v => Vec.set v i (vals.getD i dflt)) v)

/-- `makeVector(x1, …, xk)` (make_vector.hh:4-1173, generated): `vals[i] = x_{i+1}` in order, from
uninitialised contents `u`; returns (size, contents). -/
def makeVector (xs : List K) (dflt : K) (u : Vec K) : Nat × Vec K :=
  (xs.length, forN xs.length (fun i v => Vec.set v i (xs.getD i dflt)) u)

end TooN.Fill
