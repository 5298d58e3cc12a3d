import Verif.Model.Prog
import Verif.Spec.Thread
/-!
# The memory accesses of a statement, one by one

`Model/Prog.lean` says what a statement does to the variables when it runs alone.  Here the same
statement is a sequence of atomic accesses to the variables: asking a variable for its size, loading one
cell, storing one cell, constructing or resizing a variable.  This is what another thread can
observe.

* Views on the left-hand side and views on the right-hand side of an assignment are accessed element by
  element, in the order of the loops of vector.hh:263-349, matrix.hh:164-257, objects.h:295-316.
* The operands of a temporary are loaded element by element, then the temporary is computed in
  thread-private storage.  Simplification: each operand cell is loaded once (the loops of
  operators.hh load the operands of a product several times), and before the private computation
  starts.
* Simplification: constructing a variable, and resizing and refilling a `Vector<Resizable>`, is a
  single access that writes the whole variable, its size included.

TooN keeps no other state between calls: its only non-constant static object is the random number
state of `TOON_INITIALIZE_RANDOM` (internal/debug.hh:90), see `Model/DebugRandom.lean`.
-/
namespace TooN.Expr
open TooN.Thread

variable {K : Type}

/-- template sizes and dimensions of a variable (a vector is a column) -/
structure Shp where
  R : Int
  C : Int
  r : Nat
  c : Nat
  deriving DecidableEq

/-- memory locations: the size field of a variable, and its cells -/
inductive MLoc | shape (r : Root) | cell (r : Root) (p : Nat × Nat)
  deriving DecidableEq

def MLoc.root : MLoc → Root
  | .shape r => r
  | .cell r _ => r

/-- contents of a location -/
inductive Content (K : Type) | shp (o : Option Shp) | val (o : Option K)

/-- `size()`, `num_rows()`, `num_cols()` (allocator.hh:143, 218, 295, 373, 429, 520, 546, 564-570) -/
def CEnv.shapeOf (ρ : CEnv K) : Root → Option Shp
  | .v i => (ρ.v i).map fun b => ⟨b.S, 1, b.n, 1⟩
  | .m i => (ρ.m i).map fun b => ⟨b.R, b.C, b.r, b.c⟩
/-- one cell; `none` if uninitialised or absent -/
def CEnv.cellOf (ρ : CEnv K) : Root → Nat × Nat → Option K
  | .v i, p => (ρ.v i).bind fun b => if p.1 < b.n ∧ p.2 = 0 then b.cell p.1 else none
  | .m i, p => (ρ.m i).bind fun b => if p.1 < b.r ∧ p.2 < b.c then b.cell p.1 p.2 else none

def CEnv.look (ρ : CEnv K) : MLoc → Content K
  | .shape r => .shp (ρ.shapeOf r)
  | .cell r p => .val (ρ.cellOf r p)

/-- atomic accesses -/
inductive Acc (K : Type)
  | size (r : Root)
  | load (r : Root) (p : Nat × Nat)
  | store (r : Root) (p : Nat × Nat) (x : K)
  | makeV (i : Nat) (b : VB K)
  | makeM (i : Nat) (b : MB K)

abbrev Acc.Res : Acc K → Type
  | .size _ => Option Shp
  | .load _ _ => Option K
  | .store _ _ _ => Outcome Unit
  | .makeV _ _ => Unit
  | .makeM _ _ => Unit

def Acc.sem : (a : Acc K) → CEnv K → CEnv K × a.Res
  | .size r, ρ => (ρ, ρ.shapeOf r)
  | .load r p, ρ => (ρ, ρ.cellOf r p)
  | .store r p x, ρ => match ρ.write r p x with
    | .ok ρ' => (ρ', .ok ())
    | .abort => (ρ, .abort)
    | .ub => (ρ, .ub)
  | .makeV i b, ρ => ({ ρ with v := fun j => if j = i then some b else ρ.v j }, ())
  | .makeM i b, ρ => ({ ρ with m := fun j => if j = i then some b else ρ.m j }, ())

/-- A store needs the variable to be there; a (re)construction touches the whole variable. -/
def Acc.R : Acc K → Set MLoc
  | .size r => {.shape r}
  | .load r p => {.shape r, .cell r p}
  | .store r _ _ => {.shape r}
  | .makeV _ _ => ∅
  | .makeM _ _ => ∅
def Acc.W : Acc K → Set MLoc
  | .size _ => ∅
  | .load _ _ => ∅
  | .store r p _ => {.cell r p}
  | .makeV i _ => {l | l.root = .v i}
  | .makeM i _ => {l | l.root = .m i}

/-- The shared variables. -/
abbrev varSys (K : Type) : Sys :=
  ⟨CEnv K, MLoc, Content K, CEnv.look, Acc K, Acc.Res, Acc.sem, Acc.R, Acc.W⟩

/-- A thread. -/
abbrev T (K α : Type) := Th (varSys K) (Outcome α)

def T.ok {α : Type} (x : α) : T K α := .ret (.ok x)
def T.bind {α β : Type} (t : T K α) (f : α → T K β) : T K β :=
  Th.bind t fun o => match o with
    | .ok x => f x
    | .abort => .ret .abort
    | .ub => .ret .ub

/-- `for(i<n)` -/
def forT : Nat → (Nat → T K Unit) → T K Unit
  | 0, _ => .ok ()
  | n+1, f => (forT n f).bind fun _ => f n

/-- variables named in an expression -/
def vars : {k : Knd} → Ex K k → List Root
  | _, .lit _ => []
  | _, .dot a b => vars a ++ vars b
  | _, .idx a _ => vars a
  | _, .el A _ _ => vars A
  | _, .varV i => [.v i]
  | _, .onesV _ _ s => vars s
  | _, .convV _ a => vars a
  | _, .binV _ a b => vars a ++ vars b
  | _, .negV a => vars a
  | _, .scaV _ a s => vars a ++ vars s
  | _, .onesOpV _ a s => vars a ++ vars s
  | _, .cross a b => vars a ++ vars b
  | _, .mulMV A a => vars A ++ vars a
  | _, .mulVM a A => vars a ++ vars A
  | _, .diagMulV a b => vars a ++ vars b
  | _, .sliceV a _ _ => vars a
  | _, .row A _ => vars A
  | _, .diagS A => vars A
  | _, .varM i => [.m i]
  | _, .onesM _ _ _ _ s => vars s
  | _, .identM _ _ _ s => vars s
  | _, .convM _ _ A => vars A
  | _, .binM _ A B => vars A ++ vars B
  | _, .negM A => vars A
  | _, .scaM _ A s => vars A ++ vars s
  | _, .onesOpM _ A s => vars A ++ vars s
  | _, .identOpM _ A s => vars A ++ vars s
  | _, .mulMM A B => vars A ++ vars B
  | _, .mulMD A a => vars A ++ vars a
  | _, .mulDM a A => vars a ++ vars A
  | _, .transp A => vars A
  | _, .sliceM A _ _ _ _ => vars A
  | _, .asCol a => vars a
  | _, .asRow a => vars a

/-- the cells of a view -/
def locCells : {k : Knd} → CLoc k → List (Root × (Nat × Nat))
  | .s, l => [l]
  | .v, l => (List.range l.n).map fun i => (l.root, l.cell i)
  | .m, l => (List.range l.r).flatMap fun i => (List.range l.c).map fun j => (l.root, l.cell i j)

/-- the cells of a view expression -/
def viewCells (ρ : CEnv K) {k : Knd} (e : Ex K k) : List (Root × (Nat × Nat)) :=
  match locate ρ e with
  | .ok l => locCells l
  | _ => []

/-- The cells an expression reads: those of the views of variables in it. -/
def foot (ρ : CEnv K) : {k : Knd} → Ex K k → List (Root × (Nat × Nat))
  | _, .lit _ => []
  | _, .dot a b => foot ρ a ++ foot ρ b
  | _, .idx a i => if isView a then viewCells ρ (.idx a i) else foot ρ a
  | _, .el A i j => if isView A then viewCells ρ (.el A i j) else foot ρ A
  | _, .varV i => viewCells ρ (.varV i)
  | _, .onesV _ _ s => foot ρ s
  | _, .convV _ a => foot ρ a
  | _, .binV _ a b => foot ρ a ++ foot ρ b
  | _, .negV a => foot ρ a
  | _, .scaV _ a s => foot ρ a ++ foot ρ s
  | _, .onesOpV _ a s => foot ρ a ++ foot ρ s
  | _, .cross a b => foot ρ a ++ foot ρ b
  | _, .mulMV A a => foot ρ A ++ foot ρ a
  | _, .mulVM a A => foot ρ a ++ foot ρ A
  | _, .diagMulV a b => foot ρ a ++ foot ρ b
  | _, .sliceV a s l => if isView a then viewCells ρ (.sliceV a s l) else foot ρ a
  | _, .row A i => if isView A then viewCells ρ (.row A i) else foot ρ A
  | _, .diagS A => if isView A then viewCells ρ (.diagS A) else foot ρ A
  | _, .varM i => viewCells ρ (.varM i)
  | _, .onesM _ _ _ _ s => foot ρ s
  | _, .identM _ _ _ s => foot ρ s
  | _, .convM _ _ A => foot ρ A
  | _, .binM _ A B => foot ρ A ++ foot ρ B
  | _, .negM A => foot ρ A
  | _, .scaM _ A s => foot ρ A ++ foot ρ s
  | _, .onesOpM _ A s => foot ρ A ++ foot ρ s
  | _, .identOpM _ A s => foot ρ A ++ foot ρ s
  | _, .mulMM A B => foot ρ A ++ foot ρ B
  | _, .mulMD A a => foot ρ A ++ foot ρ a
  | _, .mulDM a A => foot ρ a ++ foot ρ A
  | _, .transp A => if isView A then viewCells ρ (.transp A) else foot ρ A
  | _, .sliceM A rs cs rl cl => if isView A then viewCells ρ (.sliceM A rs cs rl cl) else foot ρ A
  | _, .asCol a => if isView a then viewCells ρ (.asCol a) else foot ρ a
  | _, .asRow a => if isView a then viewCells ρ (.asRow a) else foot ρ a

/-- no variables -/
def CEnv.none : CEnv K := ⟨fun _ => .none, fun _ => .none⟩
/-- what the thread knows after asking a variable for its size -/
def CEnv.declare (σ : CEnv K) : Root → Option Shp → CEnv K
  | .v i, o => ⟨Function.update σ.v i (o.map fun s => ⟨s.R, s.r, fun _ => .none⟩), σ.m⟩
  | .m i, o => ⟨σ.v, Function.update σ.m i (o.map fun s => ⟨s.R, s.C, s.r, s.c, fun _ _ => .none⟩)⟩
/-- what it knows after loading a cell -/
def CEnv.put (σ : CEnv K) : Root → Nat × Nat → Option K → CEnv K
  | .v i, p, o => ⟨Function.update σ.v i ((σ.v i).map fun b =>
      { b with cell := fun k => if k = p.1 ∧ p.2 = 0 then o else b.cell k }), σ.m⟩
  | .m i, p, o => ⟨σ.v, Function.update σ.m i ((σ.m i).map fun b =>
      { b with cell := fun k l => if k = p.1 ∧ l = p.2 then o else b.cell k l })⟩

/-- asking variables for their sizes -/
def sizesT : List Root → CEnv K → Th (varSys K) (CEnv K)
  | [], σ => .ret σ
  | r :: rs, σ => .act (.size r) fun o => sizesT rs (σ.declare r o)
/-- loading cells -/
def loadsT : List (Root × (Nat × Nat)) → CEnv K → Th (varSys K) (CEnv K)
  | [], σ => .ret σ
  | c :: cs, σ => .act (.load c.1 c.2) fun o => loadsT cs (σ.put c.1 c.2 o)

/-- `v[i]`, `m(i,j)` as an rvalue -/
def loadT (r : Root) (p : Nat × Nat) : T K K :=
  .act (.load r p) fun o => .ret (match o with | some x => .ok x | .none => .ub)
/-- `v[i] = x` -/
def storeT (r : Root) (p : Nat × Nat) (x : K) : T K Unit := .act (.store r p x) fun o => .ret o

/-- Evaluating a view expression on the left-hand side. -/
def locT {k : Knd} (L : Ex K k) : T K (CLoc k) := Th.bind (sizesT (vars L) .none) fun σ => .ret (locate σ L)

section exec
variable [Zero K] [One K] [Add K] [Sub K] [Mul K] [Div K] [Neg K]

/-- Evaluating an expression into a temporary. -/
def evalT {k : Knd} (e : Ex K k) : T K (CVal K k) :=
  Th.bind (sizesT (vars e) .none) fun σ => Th.bind (loadsT (foot σ e) σ) fun σ => .ret (run σ e)

def srcVT (e : Ex K .v) : T K (SrcV K) :=
  if isView e then (locT e).bind fun l => .ok (.live l) else (evalT e).bind fun b => .ok (.tmp b)
def srcMT (e : Ex K .m) : T K (SrcM K) :=
  if isView e then (locT e).bind fun l => .ok (.live l) else (evalT e).bind fun b => .ok (.tmp b)
def SrcV.getT (i : Nat) : SrcV K → T K K
  | .tmp b => .ret (b.get i)
  | .live l => if i < l.n then loadT l.root (l.cell i) else .ret .ub
def SrcM.getT (i j : Nat) : SrcM K → T K K
  | .tmp b => .ret (b.get i j)
  | .live l => if i < l.r ∧ j < l.c then loadT l.root (l.cell i j) else .ret .ub

def loopVT (l : VL) (val : Nat → T K K) : T K Unit :=
  forT l.n fun k => (val k).bind fun y => storeT l.root (l.cell k) y
def loopMT (l : ML) (val : Nat → Nat → T K K) : T K Unit :=
  forT l.r fun i => forT l.c fun j => (val i j).bind fun y => storeT l.root (l.cell i j) y

/-- Assignment to a whole `Vector<Resizable>` whose size is known. -/
def resizeT (i : Nat) (l : VL) (e : Ex K .v) : Option Shp → T K Unit
  | some s => (srcVT e).bind fun src => T.bind (.ret (src.dangles l)) fun _ => (evalT e).bind fun b' =>
      T.bind (.ret (assignV (⟨s.R, s.r, fun _ => .none⟩ : VB K) b')) fun b =>
        .act (.makeV i b) fun _ => T.ok ()
  | .none => .ret .ub

/-- `Expr.asgV`, access by access (vector.hh:263-349, allocator.hh:349-360). -/
def asgVT (l : VL) : Rhs K .v → T K Unit
  | .eqV e =>
    if l.S = Checks.Resizable then
      (match l.root with
      | .v i => Th.act (.size (.v i)) (resizeT i l e)
      | .m _ => .ret .ub)
    else
      (srcVT e).bind fun s => T.bind (.ret (test l.S s.S l.n s.n)) fun _ => loopVT l fun k => s.getT k
  | .updV o e => (srcVT e).bind fun s => T.bind (.ret (test l.S s.S l.n s.n)) fun _ =>
      loopVT l fun k => (loadT l.root (l.cell k)).bind fun x => (s.getT k).bind fun y =>
        .ok (upd1 o x y)
  | .scaV o s => (evalT s).bind fun (s : K) =>
      loopVT l fun k => (loadT l.root (l.cell k)).bind fun x => .ok (md1 o x s)
  | .onesV s => (evalT s).bind fun (s : K) => loopVT l fun _ => .ok s
  | .onesUpdV o s => (evalT s).bind fun (s : K) =>
      loopVT l fun k => (loadT l.root (l.cell k)).bind fun x => .ok (upd1 o x s)

/-- `Expr.asgM`, access by access (matrix.hh:164-257, objects.h:295-316, 528-552). -/
def asgMT (l : ML) : Rhs K .m → T K Unit
  | .eqM e => (srcMT e).bind fun s => T.bind (.ret (test l.R s.R l.r s.r)) fun _ =>
      T.bind (.ret (test l.C s.C l.c s.c)) fun _ => loopMT l fun i j => s.getT i j
  | .updM o e => (srcMT e).bind fun s => T.bind (.ret (test l.R s.R l.r s.r)) fun _ =>
      T.bind (.ret (test l.C s.C l.c s.c)) fun _ =>
      loopMT l fun i j => (loadT l.root (l.cell i j)).bind fun x => (s.getT i j).bind fun y =>
        .ok (upd1 o x y)
  | .scaM o s => (evalT s).bind fun (s : K) =>
      loopMT l fun i j => (loadT l.root (l.cell i j)).bind fun x => .ok (md1 o x s)
  | .onesM s => (evalT s).bind fun (s : K) => loopMT l fun _ _ => .ok s
  | .onesUpdM o s => (evalT s).bind fun (s : K) =>
      loopMT l fun i j => (loadT l.root (l.cell i j)).bind fun x => .ok (upd1 o x s)
  | .identM s => (evalT s).bind fun (s : K) => T.bind (.ret (test l.R l.C l.r l.c)) fun _ =>
      (loopMT l fun _ _ => .ok 0).bind fun _ => forT l.r fun i => storeT l.root (l.cell i i) s
  | .identUpdM s => (evalT s).bind fun (s : K) => T.bind (.ret (test l.R l.C l.r l.c)) fun _ =>
      forT l.r fun i => (loadT l.root (l.cell i i)).bind fun x => storeT l.root (l.cell i i) (x + s)

/-- `Expr.asgS`, access by access. -/
def asgST (l : Root × (Nat × Nat)) : Rhs K .s → T K Unit
  | .eqS e => (evalT e).bind fun (y : K) => storeT l.1 l.2 y
  | .updS o e => (evalT e).bind fun (y : K) => (loadT l.1 l.2).bind fun x =>
      storeT l.1 l.2 (upd1 o x y)

def asgAtT : {k : Knd} → CLoc k → Rhs K k → T K Unit
  | .s, l, r => asgST l r
  | .v, l, r => asgVT l r
  | .m, l, r => asgMT l r

/-- A statement as a sequence of accesses (`Expr.execS`). -/
def stmtT : Stmt K → T K Unit
  | .declV i S e => (evalT (.convV S e)).bind fun (b : VB K) => .act (.makeV i b) fun _ => T.ok ()
  | .declM i R C e => (evalT (.convM R C e)).bind fun (b : MB K) => .act (.makeM i b) fun _ => T.ok ()
  | .asg L r => (locT L).bind fun l => asgAtT l r

/-- A thread running a program. -/
def progT : List (Stmt K) → T K Unit
  | [] => .ok ()
  | s :: p => (stmtT s).bind fun _ => progT p

end exec
end TooN.Expr
