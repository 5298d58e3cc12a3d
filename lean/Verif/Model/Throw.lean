import Verif.Model.Heap
/-!
# Owning objects when memory runs out or an element operation throws

The same owning allocators as in `Model/Heap`, element by element, with exceptions.  `new
Precision[n]` throws `std::bad_alloc` when memory runs out (or what a default constructor of an
element throws), and copying or assigning an element throws whatever the element type throws
(elements may be arbitrary-precision numbers, automatic-differentiation types, ...).

`fuse = some k`: the `k`-th action that can throw (counted from 0) throws; `none`: nothing throws.
Simplifications: an element assignment that throws leaves the element unchanged; moving an element
is copying it; destructors do not throw (as the language demands); one `new[]` is one action (if
the constructor of an element in it throws, the new-expression itself destroys and frees).
-/
namespace TooN.Heap
variable {K : Type _}

/-- Result of a call: it returned (`ok`), it left by an exception (`threw`), the library called
`std::abort()`, or undefined behaviour. -/
inductive Res (K : Type _) (α : Type _) where
  | ok (a : α) (s : St K) (fuse : Option Nat)
  | threw (s : St K)
  | abort
  | ub

def Th (K : Type _) (α : Type _) := St K → Option Nat → Res K α

namespace Th

def ret {α : Type _} (a : α) : Th K α := fun s f => .ok a s f

/-- Sequencing; an exception leaves the enclosing code at once. -/
def bind {α β : Type _} (m : Th K α) (g : α → Th K β) : Th K β := fun s f =>
  match m s f with
  | .ok a s f => g a s f
  | .threw s => .threw s
  | .abort => .abort
  | .ub => .ub

/-- An action that can throw. -/
def tick : Th K Unit := fun s f =>
  match f with
  | some 0 => .threw s
  | some (k+1) => .ok () s (some k)
  | none => .ok () s none

/-- Stack unwinding: when `m` throws, the destructors in `c` run and the exception goes on. -/
def onThrow {α : Type _} (m : Th K α) (c : St K → Outcome (St K)) : Th K α := fun s f =>
  match m s f with
  | .threw s => match c s with
    | .ok s => .threw s
    | .abort => .abort
    | .ub => .ub
  | r => r

/-- The object called `x`. -/
def obj (x : Nat) : Th K Obj := fun s f =>
  match s.objs x with
  | none => .ub
  | some o => .ok o s f

/-- Constructor finished / object changed / object gone. -/
def setObj (x : Nat) (o : Option Obj) : Th K Unit := fun s f => .ok () (s.setObj x o) f

/-- `new Precision[n]`; `d` is what a default-constructed element holds. -/
def newArr (d : K) (n : Nat) : Th K Nat :=
  tick.bind fun _ => fun s f => .ok (s.alloc (List.replicate n d)).1 (s.alloc (List.replicate n d)).2 f

/-- `p[i]` read. -/
def rd (p : Option Nat) (i : Nat) : Th K K := fun s f =>
  match p.bind s.bufs with
  | none => .ub
  | some l => match l[i]? with
    | none => .ub
    | some v => .ok v s f

/-- `p[i] = v`: the assignment of the element can throw. -/
def wr (p : Option Nat) (i : Nat) (v : K) : Th K Unit :=
  (rd p i).bind fun _ => tick.bind fun _ => fun s f =>
    match p with
    | none => .ub
    | some p => match s.bufs p with
      | none => .ub
      | some l => .ok () { s with bufs := upd s.bufs p (some (l.set i v)) } f

/-- `for(int i=0; i<n; i++) body i` -/
def loop : Nat → (Nat → Th K Unit) → Th K Unit
  | 0, _ => ret ()
  | n+1, body => (loop n body).bind fun _ => body n

/-- SizeMismatch test. -/
def sizeTest (a b : Nat) : Th K Unit := fun s f => if a = b then .ok () s f else .abort

/-- `delete[] p`. -/
def del (p : Option Nat) : Th K Unit := fun s f =>
  match s.free p with
  | .ok s => .ok () s f
  | .abort => .abort
  | .ub => .ub

end Th

open Th

inductive TOp (K : Type _) where
  | construct (x : Nat) (k : Kind) (n : Nat)
  | fillCtor (x : Nat) (k : Kind) (l : List K)
  | convCtor (x : Nat) (k : Kind) (n y : Nat)
  | copy (x y : Nat)
  | move (x y : Nat)
  | assign (x y : Nat)
  | fill (x : Nat) (l : List K)
  | swap (x y : Nat)
  | swapMat (x y : Nat)
  | write (x i : Nat) (v : K)
  | destroy (x : Nat)

/-- Constructor from a size (allocator.hh:84-88, 205-209, 606-612). -/
def constructT (d : K) (x : Nat) (k : Kind) (n : Nat) : Th K Unit :=
  (newArr d n).bind fun p => Th.setObj x (some ⟨k, some p, n⟩)

/-- `for(i) p[i] = l[i]`: copying a given list of element values (`std::copy` from an
initializer_list, allocator.hh:189; evaluation of an Operator, operators.hh, e.g. 100-110). -/
def fillLoop (p : Option Nat) (l : List K) (n : Nat) : Th K Unit :=
  loop n fun i => match l[i]? with
    | none => fun _ _ => .ub
    | some v => wr p i v

/-- Construction from a list of element values: `VectorAlloc(std::initializer_list)` delegates to
`VectorAlloc(int)` (allocator.hh:186-190), `Vector(const Operator<Op>&)` constructs its base and
then evaluates into it (vector.hh:205-210); in both cases the object that owns the array is already
complete, so its destructor frees the array when the copying throws. -/
def fillCtorT (d : K) (x : Nat) (k : Kind) (l : List K) : Th K Unit :=
  (newArr d l.length).bind fun p =>
  (onThrow (fillLoop (some p) l l.length) (fun s => s.free (some p))).bind fun _ =>
  Th.setObj x (some ⟨k, some p, l.length⟩)

/-- `for(i) p[i] = q[i]`. -/
def copyLoop (p q : Option Nat) (n : Nat) : Th K Unit :=
  loop n fun i => (rd q i).bind fun v => wr p i v

/-- Construction from a vector or matrix of another type (vector.hh:221-226, matrix.hh:153-158):
constructs the base from the size (`n` for a statically sized object), then assigns; the base is
complete, so its destructor frees the array when the assignment throws. -/
def convCtorT (d : K) (x : Nat) (k : Kind) (n y : Nat) : Th K Unit :=
  (Th.obj y).bind fun o =>
  let n := if k = .bigStatic then n else o.size
  (newArr d n).bind fun p =>
  (onThrow ((sizeTest n o.size).bind fun _ => copyLoop (some p) o.ptr n)
    (fun s => s.free (some p))).bind fun _ =>
  Th.setObj x (some ⟨k, some p, n⟩)

/-- Copy constructors (allocator.hh:98-103, 192-197, 596-604): the loop is in the body of the
constructor of the class that holds the bare pointer; when it throws no destructor runs. -/
def copyT (d : K) (x y : Nat) : Th K Unit :=
  (Th.obj y).bind fun o =>
  (newArr d o.size).bind fun p =>
  (copyLoop (some p) o.ptr o.size).bind fun _ =>
  Th.setObj x (some ⟨o.kind, some p, o.size⟩)

/-- Move constructors: `VectorAlloc<Dynamic>` takes the pointer, `noexcept` (allocator.hh:199-203);
the others copy. -/
def moveT (d : K) (x y : Nat) : Th K Unit :=
  (Th.obj y).bind fun o =>
  match o.kind with
  | .dynVec => (Th.setObj x (some ⟨o.kind, o.ptr, o.size⟩)).bind fun _ =>
      Th.setObj y (some ⟨o.kind, none, o.size⟩)
  | _ => copyT d x y

/-- `x = y` (vector.hh:263-271, matrix.hh:163-173). -/
def assignT (x y : Nat) : Th K Unit :=
  (Th.obj x).bind fun ox =>
  (Th.obj y).bind fun oy =>
  (sizeTest ox.size oy.size).bind fun _ => copyLoop ox.ptr oy.ptr ox.size

/-- `x = op` for an Operator whose elements are `l` (vector.hh:291-296, matrix.hh:176-180). -/
def fillT' (x : Nat) (l : List K) : Th K Unit :=
  (Th.obj x).bind fun ox =>
  (sizeTest ox.size l.length).bind fun _ => fillLoop ox.ptr l ox.size

/-- `std::swap(p[i], q[i])`: `T t(move(a)); a = move(b); b = move(t);`. -/
def swapElem (p q : Option Nat) (i : Nat) : Th K Unit :=
  (rd p i).bind fun t => tick.bind fun _ =>
  (rd q i).bind fun v => (wr p i v).bind fun _ => wr q i t

/-- `swap(x,y)` of vectors: pointers for dynamic vectors (allocator.hh:236-240), otherwise element by element
(operators.hh:722-731). -/
def swapT (x y : Nat) : Th K Unit :=
  (Th.obj x).bind fun ox =>
  (Th.obj y).bind fun oy =>
  (sizeTest ox.size oy.size).bind fun _ =>
  match ox.kind with
  | .dynVec => (Th.setObj x (some { ox with ptr := oy.ptr })).bind fun _ =>
      Th.setObj y (some { oy with ptr := ox.ptr })
  | _ => loop ox.size fun i => swapElem ox.ptr oy.ptr i

/-- `swap` of two matrices: TooN overloads `swap` for vectors only (operators.hh:745-756), so this is
`std::swap`: `T t(move(a)); a = move(b); b = move(t);` on the whole matrices, with copying moves.
The copy `t` is complete when the assignments run, so its destructor runs in any case. -/
def swapMatT (d : K) (x y : Nat) : Th K Unit :=
  (Th.obj x).bind fun ox =>
  (newArr d ox.size).bind fun t =>
  (copyLoop (some t) ox.ptr ox.size).bind fun _ =>
  (onThrow ((assignT x y).bind fun _ =>
      (Th.obj y).bind fun oy =>
      (sizeTest oy.size ox.size).bind fun _ => copyLoop oy.ptr (some t) oy.size)
    (fun s => s.free (some t))).bind fun _ =>
  del (some t)

/-- `x[i] = v` (vbase.hh:162-165). -/
def writeT (x i : Nat) (v : K) : Th K Unit :=
  (Th.obj x).bind fun o => wr o.ptr i v

/-- Destructors (allocator.hh:91-94, 222-224, 622-624). -/
def destroyT (x : Nat) : Th K Unit :=
  (Th.obj x).bind fun o => (del o.ptr).bind fun _ => Th.setObj x none

def stepT (d : K) : TOp K → Th K Unit
  | .construct x k n => constructT d x k n
  | .fillCtor x k l => fillCtorT d x k l
  | .convCtor x k n y => convCtorT d x k n y
  | .copy x y => copyT d x y
  | .move x y => moveT d x y
  | .assign x y => assignT x y
  | .fill x l => fillT' x l
  | .swap x y => swapT x y
  | .swapMat x y => swapMatT d x y
  | .write x i v => writeT x i v
  | .destroy x => destroyT x

/-- A program that catches every exception and goes on; each operation comes with its fuse.  The
result also says which operations threw. -/
def runT (d : K) (s : St K) : List (TOp K × Option Nat) → Outcome (St K × List Bool)
  | [] => .ok (s, [])
  | (op, f) :: ops => match stepT d op s f with
    | .ok _ s _ => (runT d s ops).bind fun r => .ok (r.1, false :: r.2)
    | .threw s => (runT d s ops).bind fun r => .ok (r.1, true :: r.2)
    | .abort => .abort
    | .ub => .ub

end TooN.Heap
