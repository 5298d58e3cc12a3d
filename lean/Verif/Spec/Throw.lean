import Verif.Model.Throw
import Verif.Spec.Heap
/-!
# What a caller may assume about objects after an exception

Value level, no pointers: how many actions of an operation can throw, what the objects hold when
action number `k` of it throws, and how many arrays are then lost for good.
-/
namespace TooN.Heap
variable {K : Type _}

/-- Preconditions on the caller (as in `Legal`). -/
def LegalT (a : ASt K) : TOp K → Prop
  | .construct x _ _ => a x = none
  | .fillCtor x _ _ => a x = none
  | .convCtor x _ _ y => a x = none ∧ ∃ o l, a y = some o ∧ o.val = some l
  | .copy x y => a x = none ∧ ∃ o l, a y = some o ∧ o.val = some l
  | .move x y => a x = none ∧ ∃ o l, a y = some o ∧ o.val = some l
  | .assign x y => (∃ o l, a x = some o ∧ o.val = some l) ∧ (∃ o l, a y = some o ∧ o.val = some l)
  | .fill x _ => ∃ o l, a x = some o ∧ o.val = some l
  | .swap x y => ∃ o o' l l', a x = some o ∧ a y = some o' ∧ o.kind = o'.kind ∧
      o.val = some l ∧ o'.val = some l'
  | .swapMat x y => ∃ o o' l l', a x = some o ∧ a y = some o' ∧ o.kind = o'.kind ∧
      o.val = some l ∧ o'.val = some l'
  | .write x i _ => ∃ o l, a x = some o ∧ o.val = some l ∧ i < o.size
  | .destroy x => ∃ o, a x = some o

/-- The size of object `x`. -/
def sz (a : ASt K) (x : Nat) : Nat := match a x with
  | some o => o.size
  | none => 0

/-- Is object `x` a dynamic vector? -/
def isDyn (a : ASt K) (x : Nat) : Bool := match a x with
  | some o => o.kind == .dynVec
  | none => false

/-- The size of the object that a construction from `y` makes. -/
def convSize (a : ASt K) (k : Kind) (n y : Nat) : Nat := if k = .bigStatic then n else sz a y

/-- Number of actions of the operation that can throw. -/
def actions (a : ASt K) : TOp K → Nat
  | .construct _ _ _ => 1
  | .fillCtor _ _ l => 1 + l.length
  | .convCtor _ k n y => 1 + convSize a k n y
  | .copy _ y => 1 + sz a y
  | .move _ y => if isDyn a y then 0 else 1 + sz a y
  | .assign x _ => sz a x
  | .fill x _ => sz a x
  | .swap x _ => if isDyn a x then 0 else 3 * sz a x
  | .swapMat x _ => 1 + 3 * sz a x
  | .write _ _ _ => 1
  | .destroy _ => 0

/-- Is the operation stopped because of a size mismatch?  (A constructor that gets no memory does not get as far as the test; nor does a swap of matrices
whose temporary copy throws.) -/
def mismatch (a : ASt K) (f : Option Nat) : TOp K → Bool
  | .convCtor _ k n y => convSize a k n y != sz a y && f != some 0
  | .assign x y => sz a x != sz a y
  | .fill x l => sz a x != l.length
  | .swap x y => sz a x != sz a y
  | .swapMat x y => sz a x != sz a y && (match f with
      | none => true
      | some k => sz a x < k)
  | _ => false

/-- Give object `x` the contents `l`. -/
def setVal (a : ASt K) (x : Nat) (l : List K) : ASt K :=
  upd a x ((a x).map fun o => { o with val := some l })

/-- The contents of object `x`. -/
def vals (a : ASt K) (x : Nat) : List K := match a x with
  | some o => o.val.getD []
  | none => []

/-- The objects when the operation completes. -/
def doneT (d : K) (a : ASt K) : TOp K → ASt K
  | .construct x k n => upd a x (some ⟨k, n, some (List.replicate n d)⟩)
  | .fillCtor x k l => upd a x (some ⟨k, l.length, some l⟩)
  | .convCtor x k n y => upd a x (some ⟨k, convSize a k n y, some (vals a y)⟩)
  | .copy x y => upd a x (a y)
  | .move x y => if isDyn a y then upd (upd a x (a y)) y ((a y).map fun o => { o with val := none })
      else upd a x (a y)
  | .assign x y => setVal a x (vals a y)
  | .fill x l => setVal a x l
  | .swap x y => setVal (setVal a x (vals a y)) y (vals a x)
  | .swapMat x y => setVal (setVal a x (vals a y)) y (vals a x)
  | .write x i v => setVal a x ((vals a x).set i v)
  | .destroy x => upd a x none

/-- The objects when action `k` of the operation throws: construction leaves no object and changes
none; an assignment has done its first `k` elements; an elementwise swap has given `x` the first
`(k+1)/3` elements of `y`, and `y` the first `k/3` elements of `x`; a swap of matrices has copied
`x`, then given `x` elements of `y`, then `y` elements of the copy. -/
def thrownT (a : ASt K) (k : Nat) : TOp K → ASt K
  | .assign x y => setVal a x ((vals a y).take k ++ (vals a x).drop k)
  | .fill x l => setVal a x (l.take k ++ (vals a x).drop k)
  | .swap x y =>
      setVal (setVal a x ((vals a y).take ((k+1)/3) ++ (vals a x).drop ((k+1)/3)))
        y ((vals a x).take (k/3) ++ (vals a y).drop (k/3))
  | .swapMat x y =>
      let i := k - (1 + sz a x)
      let j := k - (1 + 2 * sz a x)
      setVal (setVal a x ((vals a y).take i ++ (vals a x).drop i)) y ((vals a x).take j ++ (vals a y).drop j)
  | _ => a

/-- Arrays lost when action `k` throws: one when copying an element inside a copy constructor (or
a move constructor that copies, or the temporary of a swap of matrices) throws. -/
def lostT (a : ASt K) (k : Nat) : TOp K → Nat
  | .copy _ _ => if k = 0 then 0 else 1
  | .move _ _ => if k = 0 then 0 else 1
  | .swapMat x _ => if 0 < k ∧ k ≤ sz a x then 1 else 0
  | _ => 0

/-- Does the operation throw? -/
def throws (a : ASt K) (op : TOp K) (f : Option Nat) : Option Nat :=
  f.bind fun k => if k < actions a op then some k else none

/-- Everything observable about one operation: objects afterwards, did it throw, arrays lost;
`none` when the program is stopped by a size mismatch. -/
def specT (d : K) (a : ASt K) (op : TOp K) (f : Option Nat) : Option (ASt K × Bool × Nat) :=
  if mismatch a f op then none
  else match throws a op f with
    | some k => some (thrownT a k op, true, lostT a k op)
    | none => some (doneT d a op, false, 0)

def LegalRunT (d : K) (a : ASt K) : List (TOp K × Option Nat) → Prop
  | [] => True
  | (op, f) :: ops => LegalT a op ∧ ∀ r, specT d a op f = some r → LegalRunT d r.1 ops

/-- A whole history: final objects, which operations threw, arrays lost in all. -/
def specRunT (d : K) (a : ASt K) : List (TOp K × Option Nat) → Option (ASt K × List Bool × Nat)
  | [] => some (a, [], 0)
  | (op, f) :: ops => (specT d a op f).bind fun r => (specRunT d r.1 ops).bind fun r' =>
      some (r'.1, r.2.1 :: r'.2.1, r.2.2 + r'.2.2)

/-- The heap is in order, apart from the lost arrays: every object that has an array has one of its
own size, no two objects share one, and every live array belongs to an object unless it is lost. -/
structure Tidy (lost : List Nat) (s : St K) : Prop where
  own : ∀ x o p, s.objs x = some o → o.ptr = some p → ∃ l, s.bufs p = some l ∧ l.length = o.size
  apart : ∀ x y o o' p, s.objs x = some o → s.objs y = some o' → o.ptr = some p → o'.ptr = some p → x = y
  live : ∀ p, (∃ l, s.bufs p = some l) ↔ p ∈ lost ∨ ∃ x o, s.objs x = some o ∧ o.ptr = some p
  none : ∀ p x o, p ∈ lost → s.objs x = some o → o.ptr ≠ some p
  nodup : lost.Nodup

/-- Only running out of memory is considered: the fuse is at an allocation. -/
def OnlyMemory : TOp K × Option Nat → Prop
  | (_, none) => True
  | (.construct _ _ _, some k) => k = 0
  | (.fillCtor _ _ _, some k) => k = 0
  | (.convCtor _ _ _ _, some k) => k = 0
  | (.copy _ _, some k) => k = 0
  | (.move _ _, some k) => k = 0
  | (.swapMat _ _, some k) => k = 0
  | (_, some _) => False

/-- The history never uses a copy constructor (copy, move of anything but a dynamic vector, swap of
matrices). -/
def NoCopy : TOp K × Option Nat → Prop
  | (.copy _ _, _) => False
  | (.move _ _, _) => False
  | (.swapMat _ _, _) => False
  | _ => True

end TooN.Heap
