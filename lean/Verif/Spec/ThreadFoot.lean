import Verif.Model.Thread
/-!
# What a statement may read and write

The footprint of a statement, in terms of the variables and views that occur in it: it reads the sizes of the
variables it mentions and the cells of the views it mentions (`Model/Thread.lean`, `vars`, `foot`), and it
writes the cells of the view on its left-hand side; a declaration, and an assignment to a whole
`Vector<Resizable>`, write the whole variable.
-/
namespace TooN.Expr
variable {K : Type}

/-- read by an expression -/
def exprR (ρ : CEnv K) {k : Knd} (e : Ex K k) : Set MLoc :=
  {l | (∃ r ∈ vars e, l = .shape r) ∨ ∃ c ∈ foot ρ e, l = .cell c.1 c.2}

/-- read by the right-hand side of an assignment -/
def rhsR (ρ : CEnv K) : {k : Knd} → Rhs K k → Set MLoc
  | _, .eqS e => exprR ρ e
  | _, .updS _ e => exprR ρ e
  | _, .eqV e => exprR ρ e
  | _, .updV _ e => exprR ρ e
  | _, .scaV _ s => exprR ρ s
  | _, .onesV s => exprR ρ s
  | _, .onesUpdV _ s => exprR ρ s
  | _, .eqM e => exprR ρ e
  | _, .updM _ e => exprR ρ e
  | _, .scaM _ s => exprR ρ s
  | _, .onesM s => exprR ρ s
  | _, .onesUpdM _ s => exprR ρ s
  | _, .identM s => exprR ρ s
  | _, .identUpdM s => exprR ρ s

/-- Does the assignment resize its left-hand side? -/
def resizes : {k : Knd} → CLoc k → Rhs K k → Bool
  | .v, l, .eqV _ => VL.S l == Checks.Resizable
  | _, _, _ => false

/-- the whole variable a view belongs to -/
def locRoot : {k : Knd} → CLoc k → Root
  | .s, l => l.1
  | .v, l => VL.root l
  | .m, l => ML.root l

/-- written by an assignment to the view `l` -/
def asgW {k : Knd} (l : CLoc k) (r : Rhs K k) : Set MLoc :=
  if resizes l r then {x | x.root = locRoot l} else {x | ∃ c ∈ locCells l, x = .cell c.1 c.2}

/-- read by a statement (besides the cells it writes) -/
def stmtR (ρ : CEnv K) : Stmt K → Set MLoc
  | .declV _ _ e => exprR ρ e
  | .declM _ _ _ e => exprR ρ e
  | .asg L r => {l | ∃ x ∈ vars L, l = .shape x} ∪ rhsR ρ r

/-- written by a statement -/
def stmtW (ρ : CEnv K) : Stmt K → Set MLoc
  | .declV i _ _ => {l | l.root = .v i}
  | .declM i _ _ _ => {l | l.root = .m i}
  | .asg L r => match locate ρ L with
    | .ok l => asgW l r
    | _ => ∅

section exec
variable [Zero K] [One K] [Add K] [Sub K] [Mul K] [Div K] [Neg K]

/-- read by a program that starts in `ρ` and runs alone -/
def progR (ρ : CEnv K) : List (Stmt K) → Set MLoc
  | [] => ∅
  | s :: p => stmtR ρ s ∪ match execS ρ s with
    | .ok ρ' => progR ρ' p
    | _ => ∅
/-- written by it -/
def progW (ρ : CEnv K) : List (Stmt K) → Set MLoc
  | [] => ∅
  | s :: p => stmtW ρ s ∪ match execS ρ s with
    | .ok ρ' => progW ρ' p
    | _ => ∅

end exec
end TooN.Expr
