import Verif.Model.Loop
/-!
# Storage layout and views

Models `TooN/internal/vbase.hh`, `TooN/internal/mbase.hh`, `TooN/internal/slice_error.hh`.

A view is an offset into one buffer plus sizes and strides.  Simplifications: pointers are
offsets (`Nat`) into the owner's buffer; `int` index arithmetic is unbounded (the overflow of the
slice check is treated in `Model/Checks.lean`); static and run-time sizes are both run-time here.
-/
namespace TooN.View

/-- A vector view: `data()`, `size()`, `stride()` (vbase.hh:122-160; allocator.hh:371-456). -/
structure VView where
  off : Nat
  len : Nat
  stride : Nat
  deriving Repr, DecidableEq

/-- A matrix view: `my_data`, `num_rows()`, `num_cols()`, `rowstride()`, `colstride()`
(mbase.hh:79-132; allocator.hh:638-662). -/
structure MView where
  off : Nat
  rows : Nat
  cols : Nat
  rs : Nat
  cs : Nat
  deriving Repr, DecidableEq

/-- `data()[i * stride()]` (vbase.hh:162-170). -/
def VView.addr (v : VView) (i : Nat) : Nat := v.off + i * v.stride

/-- `my_data[r*rowstride() + c*colstride()]` (mbase.hh:134-144). -/
def MView.addr (m : MView) (r c : Nat) : Nat := m.off + (r * m.rs + c * m.cs)

/-- The run-time slice check, default configuration (slice_error.hh:124-134): `true` = accepted. -/
def sliceOk (size start length : Int) : Bool :=
  !(start + length > size || start < 0 || length < 0)

/-- `v.slice(start, length)` (vbase.hh:176-187, 202-208). -/
def VView.slice (v : VView) (start length : Int) : Outcome VView :=
  if sliceOk v.len start length then
    .ok ⟨v.off + v.stride * start.toNat, length.toNat, v.stride⟩
  else .abort

/-- `v.as_row()` (vbase.hh:211-217): row stride 1, column stride `stride()`. -/
def VView.asRow (v : VView) : MView := ⟨v.off, 1, v.len, 1, v.stride⟩

/-- `v.as_col()` (vbase.hh:219-225). -/
def VView.asCol (v : VView) : MView := ⟨v.off, v.len, 1, v.stride, 1⟩

/-- `v.as_slice()` (vbase.hh:229-235). -/
def VView.asSlice (v : VView) : VView := ⟨v.off, v.len, v.stride⟩

/-- `m[r]` (mbase.hh:162-170). The index is unchecked by default (debug.hh:50): a row outside the
matrix is outside what the program may do (`ub`); the model treats forming such a row as `ub`. -/
def MView.row (m : MView) (r : Int) : Outcome VView :=
  if 0 ≤ r ∧ r < m.rows then .ok ⟨m.off + m.rs * r.toNat, m.cols, m.cs⟩ else .ub

/-- `m.slice(rs, cs, rl, cl)` (mbase.hh:173-226). -/
def MView.slice (m : MView) (rs cs rl cl : Int) : Outcome MView :=
  if sliceOk m.rows rs rl then
    if sliceOk m.cols cs cl then
      .ok ⟨m.off + m.rs * rs.toNat + m.cs * cs.toNat, rl.toNat, cl.toNat, m.rs, m.cs⟩
    else .abort
  else .abort

/-- `m.T()` (mbase.hh:228-235). -/
def MView.T (m : MView) : MView := ⟨m.off, m.cols, m.rows, m.cs, m.rs⟩

/-- `m.diagonal_slice()` (mbase.hh:240-248). -/
def MView.diag (m : MView) : VView := ⟨m.off, min m.cols m.rows, m.rs + m.cs⟩

/-- Owning objects: a vector (stride 1, vbase.hh:86-115), a row-major matrix (row stride
`num_cols`, mbase.hh:258-276) or a column-major one (mbase.hh:278-296). -/
inductive Owner where
  | vec (n : Nat)
  | rowMajor (r c : Nat)
  | colMajor (r c : Nat)
  deriving Repr, DecidableEq

/-- Number of cells allocated (allocator.hh:122-176, 183-209, 552, 606-612). -/
def Owner.cells : Owner → Nat
  | .vec n => n
  | .rowMajor r c => r * c
  | .colMajor r c => r * c

inductive AnyView where
  | v (x : VView)
  | m (x : MView)
  deriving Repr, DecidableEq

/-- The object itself, as a view of its own buffer. -/
def Owner.view : Owner → AnyView
  | .vec n => .v ⟨0, n, 1⟩
  | .rowMajor r c => .m ⟨0, r, c, c, 1⟩
  | .colMajor r c => .m ⟨0, r, c, 1, r⟩

/-- The user-visible view operations. -/
inductive ViewOp where
  | slice (start length : Int)
  | asRow
  | asCol
  | asSlice
  | row (r : Int)
  | mslice (rs cs rl cl : Int)
  | T
  | diag
  deriving Repr, DecidableEq

/-- One view operation on a view. Applying a vector operation to a matrix (or vice versa) does not
compile, and counts as `abort`. -/
def AnyView.apply : AnyView → ViewOp → Outcome AnyView
  | .v x, .slice s l => (x.slice s l).bind (fun y => .ok (.v y))
  | .v x, .asRow => .ok (.m x.asRow)
  | .v x, .asCol => .ok (.m x.asCol)
  | .v x, .asSlice => .ok (.v x.asSlice)
  | .m x, .row r => (x.row r).bind (fun y => .ok (.v y))
  | .m x, .mslice a b c d => (x.slice a b c d).bind (fun y => .ok (.m y))
  | .m x, .T => .ok (.m x.T)
  | .m x, .diag => .ok (.v x.diag)
  | _, _ => .abort

/-- A chain `obj.op1().op2()...` -/
def AnyView.chain (x : AnyView) : List ViewOp → Outcome AnyView
  | [] => .ok x
  | op :: ops => (x.apply op).bind (fun y => y.chain ops)

/-- Index positions of a view: `[i]` for vectors, `(r,c)` for matrices. -/
inductive Idx where
  | i (i : Nat)
  | rc (r c : Nat)
  deriving Repr, DecidableEq

/-- The cell an index position denotes; `none` when the index is of the wrong kind or out of
range (for which the program has no defined behaviour). -/
def AnyView.addr? : AnyView → Idx → Option Nat
  | .v x, .i k => if k < x.len then some (x.addr k) else none
  | .m x, .rc r c => if r < x.rows ∧ c < x.cols then some (x.addr r c) else none
  | _, _ => none

/-- Buffer contents. -/
abbrev Mem (K : Type _) := Nat → K

/-- Reading an element of a view. -/
def AnyView.read {K : Type _} (x : AnyView) (mem : Mem K) (ix : Idx) : Option K :=
  (x.addr? ix).map mem

/-- Writing an element of a view (`v[i] = a`, `m(r,c) = a`). -/
def AnyView.write {K : Type _} (x : AnyView) (mem : Mem K) (ix : Idx) (a : K) : Option (Mem K) :=
  (x.addr? ix).map (fun p => fun q => if q = p then a else mem q)

end TooN.View
