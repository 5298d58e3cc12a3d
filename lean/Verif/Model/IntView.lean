import Verif.Model.View
import Verif.Model.Checks
/-!
# Views computed with machine `int`s

`Model/View.lean` computes sizes, strides and offsets with unbounded numbers.  In the library they are
32-bit `int`s, and an overflow is undefined behaviour.  Here the same functions perform every addition and
multiplication of the source with an overflow check.  Pointers are still offsets into the owner's buffer
(adding an `int` to a pointer is not `int` arithmetic).
-/
namespace TooN.View
open Checks (intMax intMin)

/-- the values of type `int` -/
def IsInt (x : Int) : Prop := intMin ≤ x ∧ x ≤ intMax
instance (x : Int) : Decidable (IsInt x) := by unfold IsInt; infer_instance

/-- `a + b` on `int`s -/
def iadd (a b : Int) : Outcome Int := if IsInt (a + b) then .ok (a + b) else .ub
/-- `a * b` on `int`s -/
def imul (a b : Int) : Outcome Int := if IsInt (a * b) then .ok (a * b) else .ub

/-- `start + length > size || start < 0 || length < 0` (slice_error.hh:124-126) -/
def sliceOkI (size start length : Int) : Outcome Bool :=
  (iadd start length).bind fun e => .ok (!(e > size || start < 0 || length < 0))

/-- `data()[i * stride()]` (vbase.hh:162-170) -/
def VView.addrI (v : VView) (i : Nat) : Outcome Nat :=
  (imul i v.stride).bind fun o => .ok (v.off + o.toNat)

/-- `my_data[r*rowstride() + c*colstride()]` (mbase.hh:134-144) -/
def MView.addrI (m : MView) (r c : Nat) : Outcome Nat :=
  (imul r m.rs).bind fun a => (imul c m.cs).bind fun b => (iadd a b).bind fun o => .ok (m.off + o.toNat)

/-- `v.slice(start, length)` (vbase.hh:176-187, 202-208) -/
def VView.sliceI (v : VView) (start length : Int) : Outcome VView :=
  (sliceOkI v.len start length).bind fun ok =>
    if ok then (imul v.stride start).bind fun o => .ok ⟨v.off + o.toNat, length.toNat, v.stride⟩
    else .abort

/-- `m[r]` (mbase.hh:162-170) -/
def MView.rowI (m : MView) (r : Int) : Outcome VView :=
  if 0 ≤ r ∧ r < m.rows then
    (imul m.rs r).bind fun o => .ok ⟨m.off + o.toNat, m.cols, m.cs⟩
  else .ub

/-- `m.slice(rs, cs, rl, cl)` (mbase.hh:173-226) -/
def MView.sliceI (m : MView) (rs cs rl cl : Int) : Outcome MView :=
  (sliceOkI m.rows rs rl).bind fun ok =>
    if ok then
      (sliceOkI m.cols cs cl).bind fun ok =>
        if ok then
          (imul m.rs rs).bind fun a => (imul m.cs cs).bind fun b =>
            .ok ⟨m.off + a.toNat + b.toNat, rl.toNat, cl.toNat, m.rs, m.cs⟩
        else .abort
    else .abort

/-- `m.diagonal_slice()` (mbase.hh:240-248): `rowstride() + colstride()` -/
def MView.diagI (m : MView) : Outcome VView :=
  (iadd m.rs m.cs).bind fun s => .ok ⟨m.off, min m.cols m.rows, s.toNat⟩

/-- One view operation (`T`, `as_row`, `as_col`, `as_slice` do no arithmetic). -/
def AnyView.applyI : AnyView → ViewOp → Outcome AnyView
  | .v x, .slice s l => (x.sliceI s l).bind (fun y => .ok (.v y))
  | .v x, .asRow => .ok (.m x.asRow)
  | .v x, .asCol => .ok (.m x.asCol)
  | .v x, .asSlice => .ok (.v x.asSlice)
  | .m x, .row r => (x.rowI r).bind (fun y => .ok (.v y))
  | .m x, .mslice a b c d => (x.sliceI a b c d).bind (fun y => .ok (.m y))
  | .m x, .T => .ok (.m x.T)
  | .m x, .diag => (x.diagI).bind (fun y => .ok (.v y))
  | _, _ => .abort

/-- A chain `obj.op1().op2()...` -/
def AnyView.chainI (x : AnyView) : List ViewOp → Outcome AnyView
  | [] => .ok x
  | op :: ops => (x.applyI op).bind (fun y => y.chainI ops)

/-- The cell an index denotes (as in `AnyView.addr?`, an index out of range is `ub`). -/
def AnyView.addrI : AnyView → Idx → Outcome Nat
  | .v x, .i k => if k < x.len then x.addrI k else .ub
  | .m x, .rc r c => if r < x.rows ∧ c < x.cols then x.addrI r c else .ub
  | _, _ => .ub

/-- The number of elements the constructor asks `new` for (allocator.hh:206 `new Precision[s]`; 605, 612
`new Precision[num_rows()*num_cols()]`; static sizes 553 `StaticSizedAllocator<R*C, Precision>`).  A
negative number makes `new` throw (`abort`). -/
def allocVecI (n : Int) : Outcome Nat := if 0 ≤ n then .ok n.toNat else .abort
@[inherit_doc allocVecI] def allocMatI (r c : Int) : Outcome Nat := (imul r c).bind allocVecI

/-- The same, as machine code computes it if the product wraps. -/
def allocMatWrapped (r c : Int) : Outcome Nat := allocVecI (Checks.wrap32 (r * c))

end TooN.View
