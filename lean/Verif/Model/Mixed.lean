import Verif.Model.Ops
import Mathlib.Data.Rat.Defs
/-!
# Mixed element types: scalar products and scaled operators

Two element types are modelled: `int` (values in ℤ, overflow ignored) and `dbl` (exact rationals).
C++ implicit conversion `dbl → int` truncates toward zero.
-/
namespace TooN.Mixed

inductive Ty | int | dbl
  deriving DecidableEq, Repr

/-- values of an element type -/
abbrev Ty.val : Ty → Type
  | .int => Int
  | .dbl => Rat

/-- C++ implicit conversion between arithmetic types. -/
def conv : (a b : Ty) → a.val → b.val
  | .int, .int => fun x => x
  | .int, .dbl => fun x => (x : Rat)
  | .dbl, .int => fun x => Int.tdiv x.num x.den
  | .dbl, .dbl => fun x => x

/-- `MultiplyType<L,R>` (operators.hh:86) by the usual arithmetic conversions. -/
def join : Ty → Ty → Ty
  | .int, .int => .int
  | _, _ => .dbl

/-- the built-in `b*c` -/
def bmul (a b : Ty) (x : a.val) (y : b.val) : (join a b).val :=
  match h : join a b with
  | .int => (conv a .int x : Int) * (conv b .int y : Int)
  | .dbl => (conv a .dbl x : Rat) * (conv b .dbl y : Rat)

/-- the built-in `b/c` (integer division truncates). -/
def bdiv (a b : Ty) (x : a.val) (y : b.val) : (join a b).val :=
  match h : join a b with
  | .int => Int.tdiv (conv a .int x) (conv b .int y)
  | .dbl => (conv a .dbl x : Rat) / (conv b .dbl y : Rat)

/-- `Multiply::op<A,B,C>(const B& b, const C& c)` (operators.hh:104-107): result converted to `A`. -/
def mulOp (A B C : Ty) (b : B.val) (c : C.val) : A.val := conv (join B C) A (bmul B C b c)

/-- element `(r,c)` of `m*s`, matrix element type `p1`, scalar type `p2`
(operators.hh:566: `op<P0,P1,P2>(lhs(r,c), rhs)`). -/
def matTimesScalar (p1 p2 : Ty) (m : p1.val) (s : p2.val) : (join p1 p2).val :=
  mulOp (join p1 p2) p1 p2 m s

/-- element `i` of `s*v` (operators.hh:538: `op<P0,P2,P1>(lhs, rhs[i])`). -/
def scalarTimesVec (p1 p2 : Ty) (s : p2.val) (v : p1.val) : (join p2 p1).val :=
  mulOp (join p2 p1) p2 p1 s v

/-- element `(r,c)` of `s*m` (operators.hh:599: `op<P0,P1,P2>(lhs, rhs(r,c))`): the template arguments
are swapped, so the scalar is converted to the matrix's element type and the element to the
scalar's type before multiplying. -/
def scalarTimesMat (p1 p2 : Ty) (s : p2.val) (m : p1.val) : (join p2 p1).val :=
  mulOp (join p2 p1) p1 p2 (conv p2 p1 s) (conv p1 p2 m)

/-- `(Ones*v)*r` / `(Identity*v)*r` (objects.h:684-689, 592-595): scale stored value by `r`. -/
def opTimes (pl pr : Ty) (v : pl.val) (r : pr.val) : (join pl pr).val :=
  conv (join pl pr) (join pl pr) (bmul pl pr v r)

/-- `(Ones*v)/r` / `(Identity*v)/r` (objects.h:691-696):
`scale_me<MultiplyType<Pl,Pr>, Pl>(static_cast<DivideType<Pl,Pr>>(1)/r)`; the factor `1/r` is bound to
`const Pl&`, i.e. converted to `Pl`. -/
def opDivide (pl pr : Ty) (v : pl.val) (r : pr.val) : (join pl pr).val :=
  let d := join pl pr
  let one : d.val := conv .int d 1
  let q : (join d pr).val := bdiv d pr one r
  let f : pl.val := conv (join d pr) pl q
  conv (join pl pl) (join pl pr) (bmul pl pl v f)

/-- the exact value denoted by an element -/
def toQ : (a : Ty) → a.val → Rat
  | .int => fun x => (x : Rat)
  | .dbl => fun x => x

end TooN.Mixed
