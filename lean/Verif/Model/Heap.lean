import Verif.Model.Loop
/-!
# Ownership of heap buffers

Models the owning allocators of `TooN/internal/allocator.hh`:
* `VectorAlloc<Dynamic>` (lines 182-259): dynamic vectors;
* `MatrixAlloc<..,false>` (lines 586-635): dynamically sized matrices;
* `StackOrHeap<..,1>` (lines 81-104): large statically sized objects.

A heap is a map from buffer addresses to live buffers.  `delete[]` of a dead buffer, and reading or
writing through a dead or null pointer, are `ub`.  Simplification: the element copy loops are done
on whole lists; a loop that would run past the end of the buffer is `ub`.
-/
namespace TooN.Heap

inductive Kind where
  | dynVec      -- Vector<Dynamic>
  | dynMat      -- Matrix with a dynamic dimension
  | bigStatic   -- statically sized object above max_bytes_on_stack
  deriving Repr, DecidableEq

/-- An owning object: its pointer (`none` = null) and number of elements (`my_size`, or
`num_rows()*num_cols()`, or the static size). -/
structure Obj where
  kind : Kind
  ptr : Option Nat
  size : Nat
  deriving Repr, DecidableEq

structure St (K : Type _) where
  bufs : Nat → Option (List K)   -- live buffers
  next : Nat                     -- next address `operator new[]` returns
  objs : Nat → Option Obj        -- live objects by name

def St.empty {K : Type _} : St K := ⟨fun _ => none, 0, fun _ => none⟩

variable {K : Type _}

def upd {α : Type _} (f : Nat → α) (i : Nat) (x : α) : Nat → α := fun j => if j = i then x else f j

/-- `new Precision[n]` with contents `l`. -/
def St.alloc (s : St K) (l : List K) : Nat × St K :=
  (s.next, { s with bufs := upd s.bufs s.next (some l), next := s.next + 1 })

/-- `delete[] p` (null is allowed). -/
def St.free (s : St K) : Option Nat → Outcome (St K)
  | none => .ok s
  | some p => match s.bufs p with
    | none => .ub
    | some _ => .ok { s with bufs := upd s.bufs p none }

/-- Read elements `0..n-1` through a pointer. -/
def St.load (s : St K) (p : Option Nat) (n : Nat) : Outcome (List K) :=
  match p with
  | none => if n = 0 then .ok [] else .ub
  | some p => match s.bufs p with
    | none => .ub
    | some l => if n ≤ l.length then .ok (l.take n) else .ub

/-- Write elements `0..l.length-1` through a pointer. -/
def St.store (s : St K) (p : Option Nat) (l : List K) : Outcome (St K) :=
  match p with
  | none => if l.length = 0 then .ok s else .ub
  | some p => match s.bufs p with
    | none => .ub
    | some old => if l.length ≤ old.length
        then .ok { s with bufs := upd s.bufs p (some (l ++ old.drop l.length)) } else .ub

def St.obj (s : St K) (x : Nat) : Outcome Obj :=
  match s.objs x with
  | none => .ub
  | some o => .ok o

def St.setObj (s : St K) (x : Nat) (o : Option Obj) : St K := { s with objs := upd s.objs x o }

inductive Op (K : Type _) where
  | construct (x : Nat) (k : Kind) (init : List K)
  | copy (x y : Nat)
  | move (x y : Nat)
  | assign (x y : Nat)
  | swap (x y : Nat)
  | write (x i : Nat) (v : K)
  | destroy (x : Nat)

/-- Constructor from a size (allocator.hh:205-209, 84-88, 606-612): allocates; `init` stands for
the (unspecified) initial contents. -/
def construct (s : St K) (x : Nat) (k : Kind) (init : List K) : Outcome (St K) :=
  let (p, s) := s.alloc init
  .ok (s.setObj x (some ⟨k, some p, init.length⟩))

/-- Copy constructors (allocator.hh:192-197, 98-103, 596-604). -/
def copy (s : St K) (x y : Nat) : Outcome (St K) :=
  (s.obj y).bind fun o =>
  (s.load o.ptr o.size).bind fun l =>
  let (p, s) := s.alloc l
  .ok (s.setObj x (some ⟨o.kind, some p, o.size⟩))

/-- Move constructors: `VectorAlloc<Dynamic>` steals the pointer and nulls the source
(allocator.hh:199-203); the other two declare only a copy constructor, so a move copies. -/
def move (s : St K) (x y : Nat) : Outcome (St K) :=
  (s.obj y).bind fun o =>
  match o.kind with
  | .dynVec =>
    let s := s.setObj x (some ⟨o.kind, o.ptr, o.size⟩)
    .ok (s.setObj y (some ⟨o.kind, none, o.size⟩))
  | _ => copy s x y

/-- `x = y` (vector.hh:263-271, matrix.hh operator=): size test, then elementwise copy. -/
def assign (s : St K) (x y : Nat) : Outcome (St K) :=
  (s.obj x).bind fun ox =>
  (s.obj y).bind fun oy =>
  if ox.size ≠ oy.size then .abort
  else (s.load oy.ptr ox.size).bind fun l => s.store ox.ptr l

/-- `swap(x,y)`: pointer swap for dynamic vectors after a size test (allocator.hh:236-240),
elementwise otherwise (operators.hh:722-731).  (Matrices have no overload and go through `std::swap`,
i.e. a copy and two assignments; the effect is the same.  `Model/Throw` models that.) -/
def swap (s : St K) (x y : Nat) : Outcome (St K) :=
  (s.obj x).bind fun ox =>
  (s.obj y).bind fun oy =>
  if ox.size ≠ oy.size then .abort
  else match ox.kind with
  | .dynVec =>
    let s := s.setObj x (some { ox with ptr := oy.ptr })
    .ok (s.setObj y (some { oy with ptr := ox.ptr }))
  | _ =>
    (s.load ox.ptr ox.size).bind fun lx =>
    (s.load oy.ptr ox.size).bind fun ly =>
    (s.store ox.ptr ly).bind fun s => s.store oy.ptr lx

/-- `x[i] = v` (vbase.hh:162-165). -/
def write (s : St K) (x i : Nat) (v : K) : Outcome (St K) :=
  (s.obj x).bind fun o =>
  match o.ptr with
  | none => .ub
  | some p => match s.bufs p with
    | none => .ub
    | some l => if i < l.length then .ok { s with bufs := upd s.bufs p (some (l.set i v)) } else .ub

/-- Destructors (allocator.hh:222-224, 91-94, 622-624). -/
def destroy (s : St K) (x : Nat) : Outcome (St K) :=
  (s.obj x).bind fun o =>
  (s.free o.ptr).bind fun s => .ok (s.setObj x none)

def step (s : St K) : Op K → Outcome (St K)
  | .construct x k l => construct s x k l
  | .copy x y => copy s x y
  | .move x y => move s x y
  | .assign x y => assign s x y
  | .swap x y => swap s x y
  | .write x i v => write s x i v
  | .destroy x => destroy s x

def run (s : St K) : List (Op K) → Outcome (St K)
  | [] => .ok s
  | op :: ops => (step s op).bind fun s => run s ops

end TooN.Heap
