import Verif.Spec.Expr
/-!
# Straight-line programs over vectors and matrices: syntax and meaning

Statements declare variables and assign to variables or to views of them (`v.slice(…)`, `m[i]`,
`m.T()[j]`, `m.slice(…)`, `m.diagonal_slice()`, `v[i]`, `m(i,j)`, …, in any nesting).  `Step σ s σ'`:
the statement `s` makes sense in the environment `σ` and changes it to `σ'`.

The meaning of an assignment to a view is given by the cells the view consists of (`Loc`): those cells
get the new values, everything else stays as it is (`Upd`).
-/
namespace TooN.Expr
open Matrix

variable {K : Type}

/-- a variable -/
inductive Root | v (i : Nat) | m (i : Nat)
  deriving DecidableEq

/-- `x *= s`, `x /= s` -/
inductive Md | mul | div
def Md.sca : Md → Sca
  | .mul => .mul
  | .div => .div
def BinM.toV : BinM → BinV
  | .add => .add
  | .sub => .sub
def BinM.toMode : BinM → Mode
  | .add => .add
  | .sub => .rsub

/-- What can follow the left-hand side of an assignment. -/
inductive Rhs (K : Type) : Knd → Type
  /-- `= e` -/
  | eqS (e : Ex K .s) : Rhs K .s
  /-- `+= e`, `-= e` on a single element -/
  | updS (o : BinM) (e : Ex K .s) : Rhs K .s
  | eqV (e : Ex K .v) : Rhs K .v
  | updV (o : BinM) (e : Ex K .v) : Rhs K .v
  | scaV (o : Md) (s : Ex K .s) : Rhs K .v
  /-- `= Ones * s` -/
  | onesV (s : Ex K .s) : Rhs K .v
  /-- `+= Ones * s`, `-= Ones * s` -/
  | onesUpdV (o : BinM) (s : Ex K .s) : Rhs K .v
  | eqM (e : Ex K .m) : Rhs K .m
  | updM (o : BinM) (e : Ex K .m) : Rhs K .m
  | scaM (o : Md) (s : Ex K .s) : Rhs K .m
  | onesM (s : Ex K .s) : Rhs K .m
  | onesUpdM (o : BinM) (s : Ex K .s) : Rhs K .m
  /-- `= Identity * s` -/
  | identM (s : Ex K .s) : Rhs K .m
  /-- `+= Identity * s` -/
  | identUpdM (s : Ex K .s) : Rhs K .m

/-- Statements. -/
inductive Stmt (K : Type)
  /-- `Vector<S> v_i(e);` -/
  | declV (i : Nat) (S : Sz) (e : Ex K .v)
  /-- `Matrix<R,C> m_i(e);` -/
  | declM (i : Nat) (R C : Sz) (e : Ex K .m)
  /-- assignment -/
  | asg {k : Knd} (L : Ex K k) (r : Rhs K k)

/-- the declared size(s) and current dimensions of a variable -/
def SEnv.shape (σ : SEnv K) : Root → Option ((Sz × Sz) × Nat × Nat)
  | .v i => match σ.v i with
    | some (S, .v (n := n) _) => some ((S, S), n, 1)
    | none => none
  | .m i => match σ.m i with
    | some (S, .m (r := r) (c := c) _) => some (S, r, c)
    | none => none

/-- one cell of a variable (a vector is a single column) -/
def SEnv.cell (σ : SEnv K) : Root → Nat × Nat → Option K
  | .v i, p => match σ.v i with
    | some (_, .v (n := n) x) => if h : p.1 < n ∧ p.2 = 0 then some (x ⟨p.1, h.1⟩) else none
    | none => none
  | .m i, p => match σ.m i with
    | some (_, .m (r := r) (c := c) X) =>
      if h : p.1 < r ∧ p.2 < c then some (X ⟨p.1, h.1⟩ ⟨p.2, h.2⟩) else none
    | none => none

/-- `Loc σ L r f`: the view `L` consists of the cells `f` of the variable `r`. -/
inductive Loc (σ : SEnv K) : {k : Knd} → Ex K k → Root → Val (Nat × Nat) k → Prop
  | varV {i S n} {x : Fin n → K} : σ.v i = some (S, .v x) →
      Loc σ (.varV i) (.v i) (.v (fun p : Fin n => ((p : Nat), 0)))
  | varM {i S r c} {X : Matrix (Fin r) (Fin c) K} : σ.m i = some (S, .m X) →
      Loc σ (.varM i) (.m i) (.m (fun (p : Fin r) (q : Fin c) => ((p : Nat), (q : Nat))))
  | idx {a ρ n} {f : Fin n → Nat × Nat} {i : Int} {k : Nat} : Loc σ a ρ (.v f) → i = (k : Int) →
      (h : k < n) → Loc σ (.idx a i) ρ (.s (f ⟨k, h⟩))
  | el {A ρ r c} {F : Matrix (Fin r) (Fin c) (Nat × Nat)} {i j : Int} {k l : Nat} :
      Loc σ A ρ (.m F) → i = (k : Int) → j = (l : Int) → (h : k < r) → (h' : l < c) →
      Loc σ (.el A i j) ρ (.s (F ⟨k, h⟩ ⟨l, h'⟩))
  | sliceV {a ρ start length} {n s l : Nat} {f : Fin n → Nat × Nat} : Loc σ a ρ (.v f) →
      start = (s : Int) → length = (l : Int) → (h : s + l ≤ n) →
      Loc σ (.sliceV a start length) ρ (.v (fun i : Fin l => f ⟨s + i, by omega⟩))
  | row {A ρ r c} {F : Matrix (Fin r) (Fin c) (Nat × Nat)} {i : Int} {k : Nat} : Loc σ A ρ (.m F) →
      i = (k : Int) → (h : k < r) → Loc σ (.row A i) ρ (.v (F ⟨k, h⟩))
  | diagS {A ρ r c} {F : Matrix (Fin r) (Fin c) (Nat × Nat)} : Loc σ A ρ (.m F) →
      Loc σ (.diagS A) ρ (.v (fun i : Fin (min r c) => F ⟨i, by omega⟩ ⟨i, by omega⟩))
  | transp {A ρ r c} {F : Matrix (Fin r) (Fin c) (Nat × Nat)} : Loc σ A ρ (.m F) →
      Loc σ (.transp A) ρ (.m Fᵀ)
  | sliceM {A ρ rs cs rl cl} {r c r0 c0 r1 c1 : Nat} {F : Matrix (Fin r) (Fin c) (Nat × Nat)} :
      Loc σ A ρ (.m F) →
      rs = (r0 : Int) → cs = (c0 : Int) → rl = (r1 : Int) → cl = (c1 : Int) →
      (h : r0 + r1 ≤ r) → (h' : c0 + c1 ≤ c) →
      Loc σ (.sliceM A rs cs rl cl) ρ
        (.m (fun (i : Fin r1) (j : Fin c1) => F ⟨r0 + i, by omega⟩ ⟨c0 + j, by omega⟩))
  | asCol {a ρ n} {f : Fin n → Nat × Nat} : Loc σ a ρ (.v f) →
      Loc σ (.asCol a) ρ (.m (fun (i : Fin n) (_ : Fin 1) => f i))
  | asRow {a ρ n} {f : Fin n → Nat × Nat} : Loc σ a ρ (.v f) →
      Loc σ (.asRow a) ρ (.m (fun (_ : Fin 1) (i : Fin n) => f i))

/-- same dimensions -/
inductive SameShape {A B : Type} : {k : Knd} → Val A k → Val B k → Prop
  | s {x y} : SameShape (.s x) (.s y)
  | v {n} {f : Fin n → A} {y : Fin n → B} : SameShape (.v f) (.v y)
  | m {r c} {F : Matrix (Fin r) (Fin c) A} {Y : Matrix (Fin r) (Fin c) B} : SameShape (.m F) (.m Y)

/-- cell `p` of the view `f` gets the value `x` of `y` -/
inductive At {A B : Type} : {k : Knd} → Val A k → Val B k → A → B → Prop
  | s (p x) : At (.s p) (.s x) p x
  | v {n} (f : Fin n → A) (y : Fin n → B) (i : Fin n) : At (.v f) (.v y) (f i) (y i)
  | m {r c} (F : Matrix (Fin r) (Fin c) A) (Y : Matrix (Fin r) (Fin c) B) (i : Fin r) (j : Fin c) :
      At (.m F) (.m Y) (F i j) (Y i j)

/-- `σ'` is `σ` with the cells `f` of the variable `r` set to the values `y`. -/
structure Upd (σ : SEnv K) (r : Root) {k : Knd} (f : Val (Nat × Nat) k) (y : Val K k) (σ' : SEnv K) :
    Prop where
  same : SameShape f y
  shape : ∀ r', σ'.shape r' = σ.shape r'
  new : ∀ p x, At f y p x → σ'.cell r p = some x
  old : ∀ r' p, (r' = r → ∀ x, ¬ At f y p x) → σ'.cell r' p = σ.cell r' p

/-- Assigning `e` to `L` element by element would overwrite an element of `e` before it is read. -/
def Hazard (σ : SEnv K) : {k : Knd} → Ex K k → Ex K k → Prop
  | .s, _, _ => False
  | .v, L, e => ∃ r n m, ∃ (f : Fin n → Nat × Nat) (g : Fin m → Nat × Nat),
      Loc σ L r (.v f) ∧ Loc σ e r (.v g) ∧ ∃ (i : Fin n) (j : Fin m), (i : Nat) < j ∧ f i = g j
  | .m, L, e => ∃ r n c n' c', ∃ (F : Matrix (Fin n) (Fin c) (Nat × Nat))
      (G : Matrix (Fin n') (Fin c') (Nat × Nat)), Loc σ L r (.m F) ∧ Loc σ e r (.m G) ∧
      ∃ (i : Fin n) (j : Fin c) (i' : Fin n') (j' : Fin c'), ((i : Nat) < i' ∨ ((i : Nat) = i' ∧ (j : Nat) < j')) ∧ F i j = G i' j'

variable [Field K]

/-- The value an assignment gives to its left-hand side (whose current value is available as the
expression `L`); for `= Ones*s` and `= Identity*s` the dimensions are those of the left-hand side. -/
inductive RDen (σ : SEnv K) : {k : Knd} → Ex K k → Rhs K k → Val K k → Prop
  | eqS {L e x} : Den σ e x → RDen σ L (.eqS e) x
  | updS {L o e} {x y : K} : Den σ L (.s x) → Den σ e (.s y) →
      RDen σ L (.updS o e) (.s (match o with | .add => x + y | .sub => x - y))
  | eqV {L e x} : Den σ e x → RDen σ L (.eqV e) x
  | updV {L o e x} : Den σ (.binV o.toV L e) x → RDen σ L (.updV o e) x
  | scaV {L o s x} : Den σ (.scaV o.sca L s) x → RDen σ L (.scaV o s) x
  | onesV {L s n} {x : Fin n → K} {k : K} : Den σ L (.v x) → Den σ s (.s k) →
      RDen σ L (.onesV s) (.v (fun _ : Fin n => k))
  | onesUpdV {L o s x} : Den σ (.onesOpV o.toMode L s) x → RDen σ L (.onesUpdV o s) x
  | eqM {L e x} : Den σ e x → RDen σ L (.eqM e) x
  | updM {L o e x} : Den σ (.binM o L e) x → RDen σ L (.updM o e) x
  | scaM {L o s x} : Den σ (.scaM o.sca L s) x → RDen σ L (.scaM o s) x
  | onesM {L s r c} {X : Matrix (Fin r) (Fin c) K} {k : K} : Den σ L (.m X) → Den σ s (.s k) →
      RDen σ L (.onesM s) (.m (fun (_ : Fin r) (_ : Fin c) => k))
  | onesUpdM {L o s x} : Den σ (.onesOpM o.toMode L s) x → RDen σ L (.onesUpdM o s) x
  | identM {L s n} {X : Matrix (Fin n) (Fin n) K} {k : K} : Den σ L (.m X) → Den σ s (.s k) →
      RDen σ L (.identM s) (.m (k • (1 : Matrix (Fin n) (Fin n) K)))
  | identUpdM {L s x} : Den σ (.identOpM .add L s) x → RDen σ L (.identUpdM s) x

def SEnv.setV (σ : SEnv K) (i : Nat) (S : Sz) (x : Val K .v) : SEnv K :=
  { σ with v := fun j => if j = i then some (S, x) else σ.v j }
def SEnv.setM (σ : SEnv K) (i : Nat) (S : Sz × Sz) (x : Val K .m) : SEnv K :=
  { σ with m := fun j => if j = i then some (S, x) else σ.m j }

/-- The assignment `L = e` resizes its left-hand side: `L` is a `Vector<Resizable>` variable. -/
def Resizes (σ : SEnv K) : {k : Knd} → Ex K k → Rhs K k → Prop
  | _, .varV i, .eqV _ => ∃ x, σ.v i = some (.rsz, x)
  | _, _, _ => False

/-- The meaning of a statement. -/
inductive Step (σ : SEnv K) : Stmt K → SEnv K → Prop
  | declV {i S e x} : Den σ (.convV S e) x → Step σ (.declV i S e) (σ.setV i S x)
  | declM {i R C e x} : Den σ (.convM R C e) x → Step σ (.declM i R C e) (σ.setM i (R, C) x)
  | asg {k} {L : Ex K k} {rhs : Rhs K k} {r f y σ'} : ¬ Resizes σ L rhs → Loc σ L r f →
      RDen σ L rhs y → Upd σ r f y σ' → Step σ (.asg L rhs) σ'
  | resize {i e x n} {y : Fin n → K} : σ.v i = some (.rsz, x) → Den σ e (.v y) → n ≠ 0 →
      Step σ (.asg (.varV i) (.eqV e)) (σ.setV i .rsz (.v y))

/-- The meaning of a sequence of statements. -/
inductive Steps : SEnv K → List (Stmt K) → SEnv K → Prop
  | nil {σ} : Steps σ [] σ
  | cons {σ σ1 σ2 s p} : Step σ s σ1 → Steps σ1 p σ2 → Steps σ (s :: p) σ2

end TooN.Expr
