import Verif.Spec.SymPosDef
import Verif.Model.WLS
/-!
# What the WLS calls mean

A measurement is: values `m : Fin N → K`, Jacobian `J : N × n`, inverse covariance `W : N × N`.  Every
`add_*` call of the API denotes one measurement.  A history of calls denotes a list of measurements.
-/
namespace TooN.WLS
variable {K : Type _} [Field K]

structure Meas (n : Nat) (K : Type _) where
  N : Nat
  m : Fin N → K
  J : Matrix (Fin N) (Fin n) K
  W : Matrix (Fin N) (Fin N) K

namespace Meas
variable {n : Nat}
/-- contribution to the information matrix: `Jᵀ W J` -/
def info (z : Meas n K) : Matrix (Fin n) (Fin n) K := z.J.transpose * z.W * z.J
/-- contribution to the information vector: `Jᵀ W m` -/
def rhs (z : Meas n K) : Fin n → K := (z.J.transpose * z.W).mulVec z.m
/-- weighted sum of squares: `(m - J x)ᵀ W (m - J x)` -/
def cost (z : Meas n K) (x : Fin n → K) : K :=
  dotProduct (z.m - z.J.mulVec x) (z.W.mulVec (z.m - z.J.mulVec x))

/-- a prior is the measurement "the parameters are 0" with inverse covariance `P` -/
def prior (P : Matrix (Fin n) (Fin n) K) : Meas n K := ⟨n, 0, 1, P⟩
/-- one scalar measurement -/
def scalar (m : K) (J : Fin n → K) (w : K) : Meas n K :=
  ⟨1, fun _ => m, Matrix.of fun _ j => J j, Matrix.of fun _ _ => w⟩
end Meas

/-- a block Jacobian placed at column `idx` of an otherwise zero `N × n` matrix -/
def padM (N S n idx : Nat) (J : Mat K) : Matrix (Fin N) (Fin n) K :=
  Matrix.of fun r c => if idx ≤ (c : Nat) ∧ (c : Nat) < idx + S then J r (c - idx) else 0

/-- a block of a Jacobian row, zero-padded -/
def padV (k n idx : Nat) (J : Vec K) : Fin n → K :=
  fun c => if idx ≤ (c : Nat) ∧ (c : Nat) < idx + k then J (c - idx) else 0

variable [DecidableEq K]

/-- histories of API calls on `WLS` objects of size `n`, with the measurements they denote.  Symmetric
inverse covariances are part of the API contract; block positions must be in range (otherwise the slice
check aborts, or element access is out of bounds). -/
inductive Reach (n : Nat) : St K → List (Meas n K) → Prop
  | construct (C0 : Mat K) (v0 : Vec K) : Reach n (construct n C0 v0) []
  | clear {s ms} : Reach n s ms → Reach n (clear n s) []
  | priorS {s ms} (val : K) : Reach n s ms →
      Reach n (addPriorS n val s) (ms ++ [Meas.prior (Matrix.diagonal fun _ => val)])
  | priorV {s ms} (p : Vec K) : Reach n s ms →
      Reach n (addPriorV n p s) (ms ++ [Meas.prior (Matrix.diagonal (asV n p))])
  | priorM {s ms} (P : Mat K) : (asM n n P).transpose = asM n n P → Reach n s ms →
      Reach n (addPriorM n P s) (ms ++ [Meas.prior (asM n n P)])
  | mJ {s ms} (m : K) (J : Vec K) (w : K) : Reach n s ms →
      Reach n (addmJ n m J w s) (ms ++ [Meas.scalar m (asV n J) w])
  | mJs {s ms} (S : Nat) (m : Vec K) (J : Mat K) (w : K) : Reach n s ms →
      Reach n (addmJs n S m J w s) (ms ++ [⟨S, asV S m, asM S n J, Matrix.diagonal fun _ => w⟩])
  | mJcov {s ms} (N : Nat) (m : Vec K) (J W : Mat K) (ju : Nat → Mat K) :
      (asM N N W).transpose = asM N N W → Reach n s ms →
      Reach n (addmJcov n N m J W ju s) (ms ++ [⟨N, asV N m, (asM n N J).transpose, asM N N W⟩])
  | mJrows {s ms} (N : Nat) (m : Vec K) (J W : Mat K) (ju : Nat → Mat K) :
      (asM N N W).transpose = asM N N W → Reach n s ms →
      Reach n (addmJrows n N m J W ju s) (ms ++ [⟨N, asV N m, asM N n J, asM N N W⟩])
  | sparse {s ms} (k : Nat) (m : K) (J1 : Vec K) (idx : Nat) (w : K) : idx + k ≤ n → Reach n s ms →
      Reach n (addSparse k m J1 idx w s) (ms ++ [Meas.scalar m (padV k n idx J1) w])
  | sparseRows {s ms} (N S1 : Nat) (m : Vec K) (J1 : Mat K) (idx : Nat) (W : Mat K) (ju : Nat → Mat K) :
      idx + S1 ≤ n → (asM N N W).transpose = asM N N W → Reach n s ms →
      Reach n (addSparseRows N S1 m J1 idx W ju s) (ms ++ [⟨N, asV N m, padM N S1 n idx J1, asM N N W⟩])
  | sparseRows2 {s ms} (N S1 S2 : Nat) (m : Vec K) (J1 : Mat K) (i1 : Nat) (J2 : Mat K) (i2 : Nat)
      (W : Mat K) (ju : Nat → Mat K) :
      i1 + S1 ≤ n → i2 + S2 ≤ n → (asM N N W).transpose = asM N N W → Reach n s ms →
      Reach n (addSparseRows2 N S1 S2 m J1 i1 J2 i2 W ju s)
        (ms ++ [⟨N, asV N m, padM N S1 n i1 J1 + padM N S2 n i2 J2, asM N N W⟩])
  | compute {s ms} (u w : Vec K) : Reach n s ms → Reach n (compute n u w s) ms
  | plusEq {s ms s' ms'} : Reach n s ms → Reach n s' ms' → Reach n (plusEq n s' s) (ms ++ ms')

end TooN.WLS
