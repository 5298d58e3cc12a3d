import Verif.Model.Loop
/-!
# Which `swap` runs

`swap(v1, v2)` of two distinct vectors (operators.hh:717-757).  A class with a `swap` method
(`VectorAlloc<Dynamic>`, `VectorAlloc<Resizable>`) and the same type on both sides uses the method,
everything else the element loop.  A vector object is represented by its elements.
-/
namespace TooN.Swap
variable {K : Type _}

/-- Storage of a vector; `fixed n` are `Vector<n>` and static views, `view` a dynamically sized view. -/
inductive VK where
  | fixed (n : Nat)
  | dynamic
  | resizable
  | view
  deriving DecidableEq

/-- `Has_swap_Method` (operators.hh:720, introspection.hh:74; the methods are at allocator.hh:236-240, 309-312). -/
def hasSwap : VK → Bool
  | .dynamic => true
  | .resizable => true
  | _ => false

/-- `swap(v1[i], v2[i])` (operators.hh:729). -/
def swapAt (i : Nat) (s : List K × List K) : List K × List K :=
  match s.1[i]?, s.2[i]? with
  | some x, some y => (s.1.set i y, s.2.set i x)
  | _, _ => s

/-- The element loop (operators.hh:722-731): size test, then `swap(v1[i], v2[i])` for each `i`. -/
def loopSwap (a b : List K) : Outcome (List K × List K) :=
  if a.length ≠ b.length then .abort
  else .ok (forN a.length swapAt (a, b))

/-- `v1.swap(v2)`: dynamic vectors test the sizes and exchange pointers (allocator.hh:236-240),
resizable ones exchange the `std::vector`s (allocator.hh:309-312). -/
def methodSwap (k : VK) (a b : List K) : Outcome (List K × List K) :=
  match k with
  | .resizable => .ok (b, a)
  | _ => if a.length ≠ b.length then .abort else .ok (b, a)

/-- `swap(v1, v2)` (operators.hh:745-756): the specialisation `Swap<V,V,true>` (733-740) needs equal
types (`same` = the element types and layouts agree) and a `swap` method. -/
def swapVec (k1 k2 : VK) (same : Bool) (a b : List K) : Outcome (List K × List K) :=
  if k1 = k2 ∧ same ∧ hasSwap k1 then methodSwap k1 a b else loopSwap a b

end TooN.Swap
