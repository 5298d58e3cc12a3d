import Verif.Model.View
/-!
# What views are supposed to mean

Independent of offsets and strides: a view of an object is a *logical* selection of elements of
that object.  Owner elements are named by their logical coordinates `(r, c)` (vectors: `(0, i)`).
-/
namespace TooN.View

/-- A logical vector view: `len` and, for each position, which owner element it is. -/
structure LVec where
  len : Nat
  elt : Nat → Nat × Nat

/-- A logical matrix view. -/
structure LMat where
  rows : Nat
  cols : Nat
  elt : Nat → Nat → Nat × Nat

inductive LView where
  | v (x : LVec)
  | m (x : LMat)

/-- The owner seen as a view of itself. -/
def Owner.lview : Owner → LView
  | .vec n => .v ⟨n, fun i => (0, i)⟩
  | .rowMajor r c => .m ⟨r, c, fun i j => (i, j)⟩
  | .colMajor r c => .m ⟨r, c, fun i j => (i, j)⟩

/-- Which logical coordinates exist in the owner. -/
def Owner.HasElt : Owner → Nat × Nat → Prop
  | .vec n, p => p.1 = 0 ∧ p.2 < n
  | .rowMajor r c, p => p.1 < r ∧ p.2 < c
  | .colMajor r c, p => p.1 < r ∧ p.2 < c

/-- Where the owner stores element `p` (row-major: row after row; column-major: column after
column). -/
def Owner.cell : Owner → Nat × Nat → Nat
  | .vec _, p => p.2
  | .rowMajor _ c, p => p.1 * c + p.2
  | .colMajor r _, p => p.2 * r + p.1

/-- The documented meaning of each view operation; `none`: not a legal use. -/
def LView.apply : LView → ViewOp → Option LView
  | .v x, .slice s l =>
      if 0 ≤ s ∧ 0 ≤ l ∧ s + l ≤ x.len then some (.v ⟨l.toNat, fun i => x.elt (s.toNat + i)⟩) else none
  | .v x, .asRow => some (.m ⟨1, x.len, fun _ c => x.elt c⟩)
  | .v x, .asCol => some (.m ⟨x.len, 1, fun r _ => x.elt r⟩)
  | .v x, .asSlice => some (.v x)
  | .m x, .row r => if 0 ≤ r ∧ r < x.rows then some (.v ⟨x.cols, fun c => x.elt r.toNat c⟩) else none
  | .m x, .mslice a b c d =>
      if (0 ≤ a ∧ 0 ≤ c ∧ a + c ≤ x.rows) ∧ (0 ≤ b ∧ 0 ≤ d ∧ b + d ≤ x.cols) then
        some (.m ⟨c.toNat, d.toNat, fun i j => x.elt (a.toNat + i) (b.toNat + j)⟩)
      else none
  | .m x, .T => some (.m ⟨x.cols, x.rows, fun i j => x.elt j i⟩)
  | .m x, .diag => some (.v ⟨min x.rows x.cols, fun k => x.elt k k⟩)
  | _, _ => none

def LView.chain (x : LView) : List ViewOp → Option LView
  | [] => some x
  | op :: ops => (x.apply op).bind (fun y => y.chain ops)

/-- Which owner element an index position of a logical view denotes. -/
def LView.elt? : LView → Idx → Option (Nat × Nat)
  | .v x, .i k => if k < x.len then some (x.elt k) else none
  | .m x, .rc r c => if r < x.rows ∧ c < x.cols then some (x.elt r c) else none
  | _, _ => none

end TooN.View
