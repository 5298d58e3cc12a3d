import Verif.Model.Heap
/-!
# Value semantics: what users of owning objects rely on

Objects are independent values: a name maps to a kind, a fixed size, and its contents (`none` =
moved-from).  No pointers, no heap.
-/
namespace TooN.Heap

structure AObj (K : Type _) where
  kind : Kind
  size : Nat
  val : Option (List K)

abbrev ASt (K : Type _) := Nat → Option (AObj K)

variable {K : Type _}

/-- What the program is allowed to do (preconditions on the caller): construct under a new name,
use existing objects, do not touch the contents of moved-from objects, index in range, swap objects
of the same type. -/
def Legal (a : ASt K) : Op K → Prop
  | .construct x _ _ => a x = none
  | .copy x y => a x = none ∧ ∃ o l, a y = some o ∧ o.val = some l
  | .move x y => a x = none ∧ ∃ o l, a y = some o ∧ o.val = some l
  | .assign x y => (∃ o l, a x = some o ∧ o.val = some l) ∧ (∃ o l, a y = some o ∧ o.val = some l)
  | .swap x y => ∃ o o' l l', a x = some o ∧ a y = some o' ∧ o.kind = o'.kind ∧
      o.val = some l ∧ o'.val = some l'
  | .write x i _ => ∃ o l, a x = some o ∧ o.val = some l ∧ i < o.size
  | .destroy x => ∃ o, a x = some o

/-- Value-level effect of each operation; `none`: a size mismatch is reported. -/
def specStep (a : ASt K) : Op K → Option (ASt K)
  | .construct x k l => some (upd a x (some ⟨k, l.length, some l⟩))
  | .copy x y => some (upd a x (a y))
  | .move x y => match a y with
      | some o => if o.kind = .dynVec then some (upd (upd a x (some o)) y (some { o with val := none }))
          else some (upd a x (some o))
      | none => some a
  | .assign x y => match a x, a y with
      | some o, some o' => if o.size = o'.size then some (upd a x (some { o with val := o'.val })) else none
      | _, _ => some a
  | .swap x y => match a x, a y with
      | some o, some o' => if o.size = o'.size then
          some (upd (upd a x (some { o with val := o'.val })) y (some { o' with val := o.val })) else none
      | _, _ => some a
  | .write x i v => match a x with
      | some o => some (upd a x (some { o with val := o.val.map (fun l => l.set i v) }))
      | none => some a
  | .destroy x => some (upd a x none)

/-- The value-level reading of a concrete state. -/
def St.abs (s : St K) : ASt K :=
  fun x => (s.objs x).map fun o => ⟨o.kind, o.size, o.ptr.bind s.bufs⟩

/-- A history all of whose operations are legal when they are executed. -/
def LegalRun (a : ASt K) : List (Op K) → Prop
  | [] => True
  | op :: ops => Legal a op ∧ ∀ a', specStep a op = some a' → LegalRun a' ops

def specRun (a : ASt K) : List (Op K) → Option (ASt K)
  | [] => some a
  | op :: ops => (specStep a op).bind fun a' => specRun a' ops

end TooN.Heap
