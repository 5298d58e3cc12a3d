import Verif.Model.Expr
import Verif.Spec.Prog
/-!
# Execution of straight-line programs

Continues `Model/Expr.lean`.  A view on the left-hand side of an assignment refers to cells of a
variable, and the loops of `operator=`, `+=`, … write to them one by one.  A right-hand side that is
itself a view is read *live*, element by element, while the loop writes; any other right-hand side has
been evaluated into a temporary before.
-/
namespace TooN.Expr
open TooN.Checks (sizeMismatch)

variable {K : Type}

/-- A vector view: which cell of which variable its element `k` is (vbase.hh: pointer, stride). -/
structure VL where
  root : Root
  S : Int
  n : Nat
  cell : Nat → Nat × Nat
/-- A matrix view. -/
structure ML where
  root : Root
  R : Int
  C : Int
  r : Nat
  c : Nat
  cell : Nat → Nat → Nat × Nat

abbrev CLoc : Knd → Type
  | .s => Root × (Nat × Nat)
  | .v => VL
  | .m => ML

/-- reading one cell of a variable -/
def CEnv.read (ρ : CEnv K) : Root → Nat × Nat → Outcome K
  | .v i, p => match ρ.v i with
    | some b => if p.2 = 0 then b.get p.1 else .ub
    | none => .ub
  | .m i, p => match ρ.m i with
    | some b => b.get p.1 p.2
    | none => .ub
/-- writing one cell of a variable -/
def CEnv.write (ρ : CEnv K) (r : Root) (p : Nat × Nat) (x : K) : Outcome (CEnv K) :=
  match r with
  | .v i => match ρ.v i with
    | some b => if p.2 = 0 then (b.set p.1 x).bind fun b =>
        .ok { ρ with v := fun j => if j = i then some b else ρ.v j } else .ub
    | none => .ub
  | .m i => match ρ.m i with
    | some b => (b.set p.1 p.2 x).bind fun b =>
        .ok { ρ with m := fun j => if j = i then some b else ρ.m j }
    | none => .ub

/-- Views of variables: the expressions that can be assigned to. -/
def isView : {k : Knd} → Ex K k → Bool
  | _, .varV _ => true
  | _, .varM _ => true
  | _, .idx a _ => isView a
  | _, .el A _ _ => isView A
  | _, .sliceV a _ _ => isView a
  | _, .row A _ => isView A
  | _, .diagS A => isView A
  | _, .transp A => isView A
  | _, .sliceM A _ _ _ _ => isView A
  | _, .asCol a => isView a
  | _, .asRow a => isView a
  | _, _ => false

/-- Evaluation of a view: the same functions as in `run` (vbase.hh:158-226, mbase.hh:134-248), with
positions instead of contents. -/
def locate (ρ : CEnv K) : {k : Knd} → Ex K k → Outcome (CLoc k)
  | _, .varV i => match ρ.v i with
    | some b => .ok ⟨.v i, b.S, b.n, fun k => (k, 0)⟩
    | none => .abort
  | _, .varM i => match ρ.m i with
    | some b => .ok ⟨.m i, b.R, b.C, b.r, b.c, fun k l => (k, l)⟩
    | none => .abort
  | _, .idx a i => (locate ρ a).bind fun (l : VL) =>
      if 0 ≤ i ∧ i < l.n then .ok (l.root, l.cell i.toNat) else .ub
  | _, .el A i j => (locate ρ A).bind fun (l : ML) =>
      if (0 ≤ i ∧ i < l.r) ∧ 0 ≤ j ∧ j < l.c then .ok (l.root, l.cell i.toNat j.toNat) else .ub
  | _, .sliceV a start length => (locate ρ a).bind fun (l : VL) =>
      match Checks.sliceDyn l.S l.n start length with
      | .ok => .ok ⟨l.root, Checks.Dynamic, length.toNat, fun i => l.cell (start.toNat + i)⟩
      | _ => .abort
  | _, .row A i => (locate ρ A).bind fun (l : ML) =>
      if 0 ≤ i ∧ i < l.r then .ok ⟨l.root, l.C, l.c, l.cell i.toNat⟩ else .ub
  | _, .diagS A => (locate ρ A).bind fun (l : ML) =>
      .ok ⟨l.root, Typed.diagSize l.R l.C, min l.c l.r, fun i => l.cell i i⟩
  | _, .transp A => (locate ρ A).bind fun (l : ML) =>
      .ok ⟨l.root, l.C, l.R, l.c, l.r, fun i j => l.cell j i⟩
  | _, .sliceM A rs cs rl cl => (locate ρ A).bind fun (l : ML) =>
      match Checks.sliceDyn l.R l.r rs rl with
      | .ok => (match Checks.sliceDyn l.C l.c cs cl with
        | .ok => .ok ⟨l.root, Checks.Dynamic, Checks.Dynamic, rl.toNat, cl.toNat,
            fun i j => l.cell (rs.toNat + i) (cs.toNat + j)⟩
        | _ => .abort)
      | _ => .abort
  | _, .asCol a => (locate ρ a).bind fun (l : VL) =>
      if l.S = Checks.Resizable then .ub else .ok ⟨l.root, l.S, 1, l.n, 1, fun i _ => l.cell i⟩
  | _, .asRow a => (locate ρ a).bind fun (l : VL) =>
      if l.S = Checks.Resizable then .ub else .ok ⟨l.root, 1, l.S, 1, l.n, fun _ i => l.cell i⟩
  | _, _ => .abort

/-- A right-hand side: a temporary, or a view that is read while the loop runs. -/
inductive SrcV (K : Type) | tmp (b : VB K) | live (l : VL)
inductive SrcM (K : Type) | tmp (b : MB K) | live (l : ML)

def SrcV.S : SrcV K → Int | .tmp b => b.S | .live l => l.S
def SrcV.n : SrcV K → Nat | .tmp b => b.n | .live l => l.n
/-- `rhs[i]` -/
def SrcV.get (ρ : CEnv K) (i : Nat) : SrcV K → Outcome K
  | .tmp b => b.get i
  | .live l => if i < l.n then ρ.read l.root (l.cell i) else .ub
def SrcM.R : SrcM K → Int | .tmp b => b.R | .live l => l.R
def SrcM.C : SrcM K → Int | .tmp b => b.C | .live l => l.C
def SrcM.r : SrcM K → Nat | .tmp b => b.r | .live l => l.r
def SrcM.c : SrcM K → Nat | .tmp b => b.c | .live l => l.c
/-- `from[r][c]` -/
def SrcM.get (ρ : CEnv K) (i j : Nat) : SrcM K → Outcome K
  | .tmp b => b.get i j
  | .live l => if i < l.r ∧ j < l.c then ρ.read l.root (l.cell i j) else .ub

/-- `for(i<size()) (*this)[i] = val(i)` on a view. -/
def loopV (l : VL) (val : CEnv K → Nat → Outcome K) (ρ : CEnv K) : Outcome (CEnv K) :=
  forO l.n (fun k ρ => (val ρ k).bind fun y => ρ.write l.root (l.cell k) y) ρ
/-- `for(r<num_rows()) for(c<num_cols()) (*this)[r][c] = val(r,c)` on a view. -/
def loopM (l : ML) (val : CEnv K → Nat → Nat → Outcome K) (ρ : CEnv K) : Outcome (CEnv K) :=
  forO l.r (fun i ρ => forO l.c (fun j ρ =>
    (val ρ i j).bind fun y => ρ.write l.root (l.cell i j) y) ρ) ρ

section exec
variable [Zero K] [One K] [Add K] [Sub K] [Mul K] [Div K] [Neg K]

def srcV (ρ : CEnv K) (e : Ex K .v) : Outcome (SrcV K) :=
  if isView e then (locate ρ e).bind fun l => .ok (.live l) else (run ρ e).bind fun b => .ok (.tmp b)
def srcM (ρ : CEnv K) (e : Ex K .m) : Outcome (SrcM K) :=
  if isView e then (locate ρ e).bind fun l => .ok (.live l) else (run ρ e).bind fun b => .ok (.tmp b)

/-- `x += y`, `x -= y`; `x *= y`, `x /= y` on elements. -/
def upd1 : BinM → K → K → K
  | .add, x, y => x + y
  | .sub, x, y => x - y
def md1 : Md → K → K → K
  | .mul, x, y => x * y
  | .div, x, y => x / y

/-- is the source a slice of the vector about to be resized? -/
def SrcV.dangles (l : VL) : SrcV K → Outcome Unit
  | .live l' => if l'.root = l.root ∧ l'.S ≠ Checks.Resizable then .ub else .ok ()
  | .tmp _ => .ok ()

/-- Assignments to a vector view (vector.hh:263-349): `operator=` from a vector (263-286), `+=`, `-=`
(312-345), `*=`, `/=` (299-310), `= Ones*s`, `+= Ones*s`, `-= Ones*s` (288-297, 321-337 with
objects.h:484-504).  A `Vector<Resizable>` is resized first (allocator.hh:349-360); a source that is a slice of it
then refers to storage that may be gone, which is counted as undefined.  Simplification: this is also
done for the harmless `v = v.slice(0,k)`, whose elements keep their place. -/
def asgV (ρ : CEnv K) (l : VL) : Rhs K .v → Outcome (CEnv K)
  | .eqV e =>
    if l.S = Checks.Resizable then
      (match l.root with
      | .v i => (match ρ.v i with
        | some b => (srcV ρ e).bind fun s => (s.dangles l).bind fun _ => (run ρ e).bind fun b' =>
          (assignV b b').bind fun b => .ok { ρ with v := fun j => if j = i then some b else ρ.v j }
        | none => .ub)
      | .m _ => .ub)
    else
      (srcV ρ e).bind fun s => (test l.S s.S l.n s.n).bind fun _ => loopV l (fun ρ k => s.get ρ k) ρ
  | .updV o e => (srcV ρ e).bind fun s => (test l.S s.S l.n s.n).bind fun _ =>
      loopV l (fun ρ k => (ρ.read l.root (l.cell k)).bind fun x => (s.get ρ k).bind fun y =>
        .ok (upd1 o x y)) ρ
  | .scaV o s => (run ρ s).bind fun (s : K) =>
      loopV l (fun ρ k => (ρ.read l.root (l.cell k)).bind fun x => .ok (md1 o x s)) ρ
  | .onesV s => (run ρ s).bind fun (s : K) => loopV l (fun _ _ => .ok s) ρ
  | .onesUpdV o s => (run ρ s).bind fun (s : K) =>
      loopV l (fun ρ k => (ρ.read l.root (l.cell k)).bind fun x => .ok (upd1 o x s)) ρ

/-- Assignments to a matrix view (matrix.hh:164-257, objects.h:295-316, 528-552). -/
def asgM (ρ : CEnv K) (l : ML) : Rhs K .m → Outcome (CEnv K)
  | .eqM e => (srcM ρ e).bind fun s => (test l.R s.R l.r s.r).bind fun _ =>
      (test l.C s.C l.c s.c).bind fun _ => loopM l (fun ρ i j => s.get ρ i j) ρ
  | .updM o e => (srcM ρ e).bind fun s => (test l.R s.R l.r s.r).bind fun _ =>
      (test l.C s.C l.c s.c).bind fun _ =>
      loopM l (fun ρ i j => (ρ.read l.root (l.cell i j)).bind fun x => (s.get ρ i j).bind fun y =>
        .ok (upd1 o x y)) ρ
  | .scaM o s => (run ρ s).bind fun (s : K) =>
      loopM l (fun ρ i j => (ρ.read l.root (l.cell i j)).bind fun x => .ok (md1 o x s)) ρ
  | .onesM s => (run ρ s).bind fun (s : K) => loopM l (fun _ _ _ => .ok s) ρ
  | .onesUpdM o s => (run ρ s).bind fun (s : K) =>
      loopM l (fun ρ i j => (ρ.read l.root (l.cell i j)).bind fun x => .ok (upd1 o x s)) ρ
  | .identM s => (run ρ s).bind fun (s : K) => (test l.R l.C l.r l.c).bind fun _ =>
      (loopM l (fun _ _ _ => .ok 0) ρ).bind fun ρ =>
      forO l.r (fun i ρ => ρ.write l.root (l.cell i i) s) ρ
  | .identUpdM s => (run ρ s).bind fun (s : K) => (test l.R l.C l.r l.c).bind fun _ =>
      forO l.r (fun i ρ => (ρ.read l.root (l.cell i i)).bind fun x =>
        ρ.write l.root (l.cell i i) (x + s)) ρ

/-- Assignments to one element: `v[i] = s`, `m(i,j) += s`, … -/
def asgS (ρ : CEnv K) (l : Root × (Nat × Nat)) : Rhs K .s → Outcome (CEnv K)
  | .eqS e => (run ρ e).bind fun (y : K) => ρ.write l.1 l.2 y
  | .updS o e => (run ρ e).bind fun (y : K) => (ρ.read l.1 l.2).bind fun x =>
      ρ.write l.1 l.2 (upd1 o x y)

def asgAt (ρ : CEnv K) : {k : Knd} → CLoc k → Rhs K k → Outcome (CEnv K)
  | .s, l, r => asgS ρ l r
  | .v, l, r => asgV ρ l r
  | .m, l, r => asgM ρ l r

/-- Execution of a statement.  A declaration with an initialiser constructs a new object
(vector.hh:205-226, matrix.hh:144-158; the copy constructors are C06). -/
def execS (ρ : CEnv K) : Stmt K → Outcome (CEnv K)
  | .declV i S e => (run ρ (.convV S e)).bind fun (b : VB K) =>
      .ok { ρ with v := fun j => if j = i then some b else ρ.v j }
  | .declM i R C e => (run ρ (.convM R C e)).bind fun (b : MB K) =>
      .ok { ρ with m := fun j => if j = i then some b else ρ.m j }
  | .asg L r => (locate ρ L).bind fun l => asgAt ρ l r

/-- Static part of an assignment: the operands' types, and the static part of the size tests. -/
def compR (Γ : TEnv) : {k : Knd} → Ty k → Rhs K k → Bool
  | _, _, .eqS e => (comp Γ e).isSome
  | _, _, .updS _ e => (comp Γ e).isSome
  | _, t, .eqV e => match comp Γ e with | some S => testC t S | none => false
  | _, t, .updV _ e => match comp Γ e with | some S => testC t S | none => false
  | _, _, .scaV _ s => (comp Γ s).isSome
  | _, _, .onesV s => (comp Γ s).isSome
  | _, _, .onesUpdV _ s => (comp Γ s).isSome
  | _, t, .eqM e => match comp Γ e with | some S => testC t.1 S.1 && testC t.2 S.2 | none => false
  | _, t, .updM _ e => match comp Γ e with | some S => testC t.1 S.1 && testC t.2 S.2 | none => false
  | _, _, .scaM _ s => (comp Γ s).isSome
  | _, _, .onesM s => (comp Γ s).isSome
  | _, _, .onesUpdM _ s => (comp Γ s).isSome
  | _, t, .identM s => (comp Γ s).isSome && testC t.1 t.2
  | _, t, .identUpdM s => (comp Γ s).isSome && testC t.1 t.2

/-- Does a statement compile, and which declarations are in force afterwards? -/
def compS (Γ : TEnv) : Stmt K → Option TEnv
  | .declV i S e => (comp Γ (.convV S e)).bind fun t =>
      some { Γ with v := fun j => if j = i then some t else Γ.v j }
  | .declM i R C e => (comp Γ (.convM R C e)).bind fun t =>
      some { Γ with m := fun j => if j = i then some t else Γ.m j }
  | .asg L r => match comp Γ L with
    | none => none
    | some t => if isView L && compR Γ t r then some Γ else none

def compP (Γ : TEnv) : List (Stmt K) → Option TEnv
  | [] => some Γ
  | s :: p => (compS Γ s).bind fun Γ => compP Γ p

def runP (ρ : CEnv K) : List (Stmt K) → Outcome (CEnv K)
  | [] => .ok ρ
  | s :: p => (execS ρ s).bind fun ρ => runP ρ p

/-- Compile the whole program, then run it. -/
def execP (ρ : CEnv K) (p : List (Stmt K)) : Result (CEnv K) :=
  match compP ρ.types p with
  | none => .compileError
  | some _ => match runP ρ p with
    | .ok a => .ok a
    | .abort => .abort
    | .ub => .ub

end exec
end TooN.Expr
