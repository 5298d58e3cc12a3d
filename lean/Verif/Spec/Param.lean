import Verif.Spec.Prog
/-!
# The same expression or program over another scalar type

`e.map f` is the expression `e` with every scalar constant `x` replaced by `f x`; nothing else in an
expression or a program mentions scalars.
-/
namespace TooN.Expr

variable {K K' : Type}

def Ex.map (f : K → K') : {k : Knd} → Ex K k → Ex K' k
  | _, .lit x => .lit (f x)
  | _, .dot a b => .dot (a.map f) (b.map f)
  | _, .idx a i => .idx (a.map f) i
  | _, .el A i j => .el (A.map f) i j
  | _, .varV i => .varV i
  | _, .onesV S n s => .onesV S n (s.map f)
  | _, .convV S a => .convV S (a.map f)
  | _, .binV o a b => .binV o (a.map f) (b.map f)
  | _, .negV a => .negV (a.map f)
  | _, .scaV o a s => .scaV o (a.map f) (s.map f)
  | _, .onesOpV o a s => .onesOpV o (a.map f) (s.map f)
  | _, .cross a b => .cross (a.map f) (b.map f)
  | _, .mulMV A a => .mulMV (A.map f) (a.map f)
  | _, .mulVM a A => .mulVM (a.map f) (A.map f)
  | _, .diagMulV a b => .diagMulV (a.map f) (b.map f)
  | _, .sliceV a s l => .sliceV (a.map f) s l
  | _, .row A i => .row (A.map f) i
  | _, .diagS A => .diagS (A.map f)
  | _, .varM i => .varM i
  | _, .onesM R C r c s => .onesM R C r c (s.map f)
  | _, .identM R C n s => .identM R C n (s.map f)
  | _, .convM R C A => .convM R C (A.map f)
  | _, .binM o A B => .binM o (A.map f) (B.map f)
  | _, .negM A => .negM (A.map f)
  | _, .scaM o A s => .scaM o (A.map f) (s.map f)
  | _, .onesOpM o A s => .onesOpM o (A.map f) (s.map f)
  | _, .identOpM o A s => .identOpM o (A.map f) (s.map f)
  | _, .mulMM A B => .mulMM (A.map f) (B.map f)
  | _, .mulMD A a => .mulMD (A.map f) (a.map f)
  | _, .mulDM a A => .mulDM (a.map f) (A.map f)
  | _, .transp A => .transp (A.map f)
  | _, .sliceM A rs cs rl cl => .sliceM (A.map f) rs cs rl cl
  | _, .asCol a => .asCol (a.map f)
  | _, .asRow a => .asRow (a.map f)

def Rhs.map (f : K → K') : {k : Knd} → Rhs K k → Rhs K' k
  | _, .eqS e => .eqS (e.map f)
  | _, .updS o e => .updS o (e.map f)
  | _, .eqV e => .eqV (e.map f)
  | _, .updV o e => .updV o (e.map f)
  | _, .scaV o s => .scaV o (s.map f)
  | _, .onesV s => .onesV (s.map f)
  | _, .onesUpdV o s => .onesUpdV o (s.map f)
  | _, .eqM e => .eqM (e.map f)
  | _, .updM o e => .updM o (e.map f)
  | _, .scaM o s => .scaM o (s.map f)
  | _, .onesM s => .onesM (s.map f)
  | _, .onesUpdM o s => .onesUpdM o (s.map f)
  | _, .identM s => .identM (s.map f)
  | _, .identUpdM s => .identUpdM (s.map f)

def Stmt.map (f : K → K') : Stmt K → Stmt K'
  | .declV i S e => .declV i S (e.map f)
  | .declM i R C e => .declM i R C (e.map f)
  | .asg L r => .asg (L.map f) (r.map f)

/-- The operations of two scalar types respect a relation between their values. -/
structure Respects [Zero K] [One K] [Add K] [Sub K] [Mul K] [Div K] [Neg K]
    [Zero K'] [One K'] [Add K'] [Sub K'] [Mul K'] [Div K'] [Neg K'] (R : K → K' → Prop) : Prop where
  zero : R 0 0
  one : R 1 1
  add : ∀ {x x' y y'}, R x x' → R y y' → R (x + y) (x' + y')
  sub : ∀ {x x' y y'}, R x x' → R y y' → R (x - y) (x' - y')
  mul : ∀ {x x' y y'}, R x x' → R y y' → R (x * y) (x' * y')
  div : ∀ {x x' y y'}, R x x' → R y y' → R (x / y) (x' / y')
  neg : ∀ {x x'}, R x x' → R (-x) (-x')

/-- All values are related. -/
def AnyRel : K → K' → Prop := fun _ _ => True

end TooN.Expr
