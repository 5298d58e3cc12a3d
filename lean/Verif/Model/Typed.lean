import Verif.Model.View
import Verif.Model.Checks
/-!
# Sizes and strides in the types

`Model/View.lean` treats all sizes and strides as run-time numbers.  In the code each of them is a template argument:
a non-negative number is the value itself, `-1` means it is stored in the object, `-2` (strides only) means "the number of
columns/rows", and `Resizable` is a fourth case for vector sizes.  This file models the view operations with the template
arguments as the code computes them (vbase.hh, mbase.hh, allocator.hh, reference.hh), so that a wrong stride in a *type* is
visible.  Pointers are integer offsets; `int` is unbounded.
-/
namespace TooN.Typed
open TooN.Checks TooN.View

/-- what a `Vector`/`Matrix` expression evaluates to -/
inductive Res (α : Type) where
  | ok (a : α)
  | compileError
  | abort
  | ub
  deriving Repr, DecidableEq

/-- continue after a check -/
def Res.after {α : Type} (c : Check) (a : Res α) : Res α :=
  match c with
  | .ok => a
  | .compileError => .compileError
  | .abort => .abort

/-- a vector object: template arguments `Size`, `Stride`, whether the memory class is an allocator or `VectorSlice`, and the
members `my_data`, `my_size`, `my_stride` (absent members are ignored by the functions below) -/
structure TV where
  Size : Int
  Stride : Int
  owns : Bool
  off : Int
  mySize : Int
  myStride : Int
  deriving Repr, DecidableEq

/-- `size()`: `VectorAlloc<Size>` (allocator.hh:142-145), `VectorAlloc<Dynamic>` (218-220), `VectorAlloc<Resizable>` (295-297),
`VectorSlice<S>` (373-375), `VectorSlice<Dynamic>` (428-430) -/
def TV.size (v : TV) : Int :=
  if v.Size = Checks.Dynamic then v.mySize
  else if v.Size = Resizable ∧ v.owns = true then v.mySize
  else v.Size

/-- `stride()`: `StrideHolder<s>` (allocator.hh:670-682), `StrideHolder<-1>` (684-696); vbase.hh:124-126 -/
def TV.stride (v : TV) : Int := if v.Stride = -1 then v.myStride else v.Stride

/-- address of `v[i]` (vbase.hh:162-170) -/
def TV.addr (v : TV) (i : Int) : Int := v.off + i * v.stride

/-- a matrix object: template arguments and members -/
structure TM where
  Rows : Int
  Cols : Int
  RowStride : Int
  ColStride : Int
  off : Int
  myRows : Int
  myCols : Int
  myRS : Int
  myCS : Int
  deriving Repr, DecidableEq

/-- `SizeHolder<s>::size()` (allocator.hh:468-478), `SizeHolder<-1>` (483-496); also `MatrixAlloc` with both sizes static
(561-567), where the sizes are the template arguments -/
def sizeHolder (S my : Int) : Int := if S = -1 then my else S

def TM.numRows (m : TM) : Int := sizeHolder m.Rows m.myRows
def TM.numCols (m : TM) : Int := sizeHolder m.Cols m.myCols

/-- `StrideHolder<s>::stride()` (allocator.hh:670-696) -/
def strideHolder (S my : Int) : Int := if S = -1 then my else S

/-- `rowstride()` (mbase.hh:90-96) -/
def TM.rowstride (m : TM) : Int := if m.RowStride = -2 then m.numCols else strideHolder m.RowStride m.myRS
/-- `colstride()` (mbase.hh:98-104) -/
def TM.colstride (m : TM) : Int := if m.ColStride = -2 then m.numRows else strideHolder m.ColStride m.myCS

/-- address of `m(r,c)` (mbase.hh:134-144) -/
def TM.addr (m : TM) (r c : Int) : Int := m.off + (r * m.rowstride + c * m.colstride)

/-- `SliceRowStride`, `SliceColStride` (mbase.hh:84-86): slices never have tied strides -/
def sliceStride (S : Int) : Int := if S = -2 then -1 else S

/-- `X==Dynamic ? x : X` (vbase.hh:180, mbase.hh:182-184) -/
def sel (X x : Int) : Int := if X = Checks.Dynamic then x else X

/-- `v.slice<Start,Length>(start, length)` (vbase.hh:176-187) -/
def TV.slice (v : TV) (Start Length start length : Int) : Res TV :=
  .after (check v.Size Start Length v.size start length) <|
    .ok ⟨Length, v.Stride, false, v.off + v.stride * sel Start start, sel Length length, v.stride⟩

/-- `v.slice<Start,Length>()` (vbase.hh:191-200) -/
def TV.sliceS (v : TV) (Start Length : Int) : Res TV :=
  .after (checkStatic v.Size Start Length .ok) (v.slice Start Length Start Length)

/-- `v.as_row()` (vbase.hh:211-217) with `Slice<1,Stride>` -/
def TV.asRow (v : TV) : TM := ⟨1, v.Size, 1, v.Stride, v.off, 1, v.size, 1, v.stride⟩
/-- `v.as_col()` (vbase.hh:219-225) with `Slice<Stride,1>` -/
def TV.asCol (v : TV) : TM := ⟨v.Size, 1, v.Stride, 1, v.off, v.size, 1, v.stride, 1⟩
/-- `v.as_slice()` (vbase.hh:227-235); the vector inside `v.as_diagonal()` (vbase.hh:237-243) is the same object -/
def TV.asSlice (v : TV) : TV := ⟨v.Size, v.Stride, false, v.off, v.size, v.stride⟩

/-- `m[r]` (mbase.hh:162-170); a row outside the matrix is `ub`, as in `Model/View.lean` -/
def TM.row (m : TM) (r : Int) : Res TV :=
  if 0 ≤ r ∧ r < m.numRows then
    .ok ⟨m.Cols, sliceStride m.ColStride, false, m.off + m.rowstride * r, m.numCols, m.colstride⟩
  else .ub

/-- `m.slice<Rstart,Cstart,Rlength,Clength>(rs, cs, rl, cl)` (mbase.hh:173-200) -/
def TM.slice (m : TM) (Rstart Cstart Rlength Clength rs cs rl cl : Int) : Res TM :=
  .after (check m.Rows Rstart Rlength m.numRows rs rl) <|
  .after (check m.Cols Cstart Clength m.numCols cs cl) <|
    .ok ⟨Rlength, Clength, sliceStride m.RowStride, sliceStride m.ColStride,
      m.off + m.rowstride * sel Rstart rs + m.colstride * sel Cstart cs,
      sel Rlength rl, sel Clength cl, m.rowstride, m.colstride⟩

/-- `m.slice<Rstart,Cstart,Rlength,Clength>()` (mbase.hh:202-218) -/
def TM.sliceS (m : TM) (Rstart Cstart Rlength Clength : Int) : Res TM :=
  .after (checkStatic m.Rows Rstart Rlength .ok) <|
  .after (checkStatic m.Cols Cstart Clength .ok) <|
    m.slice Rstart Cstart Rlength Clength Rstart Cstart Rlength Clength

/-- `m.T()` (mbase.hh:228-235) -/
def TM.T (m : TM) : TM :=
  ⟨m.Cols, m.Rows, sliceStride m.ColStride, sliceStride m.RowStride, m.off, m.numCols, m.numRows, m.colstride, m.rowstride⟩

/-- `DiagSize` (mbase.hh:56-65) -/
def diagSize (Rows Cols : Int) : Int :=
  if Rows = Checks.Dynamic ∨ Cols = Checks.Dynamic then Checks.Dynamic else if Rows < Cols then Rows else Cols
/-- `DiagStride` (mbase.hh:67-76) -/
def diagStride (Rs Cs : Int) : Int := if Rs = Checks.Dynamic ∨ Cs = Checks.Dynamic then Checks.Dynamic else Rs + Cs

/-- `m.diagonal_slice()` (mbase.hh:237-248) -/
def TM.diag (m : TM) : TV :=
  ⟨diagSize m.Rows m.Cols, diagStride (sliceStride m.RowStride) (sliceStride m.ColStride), false, m.off,
    min m.numCols m.numRows, m.rowstride + m.colstride⟩

/-! ## Where views start -/

/-- objects a program starts from: a vector (`VBase`, vbase.hh:86-115; a wrapped buffer, reference.hh:39-47; named elements,
named_elements.h:46-65; planar complex, planar_complex.hh:63-85) with template size `Size` and run-time size argument `n`; a
row-major matrix (mbase.hh:258-276, reference.hh:50-64); a column-major one (mbase.hh:278-296, reference.hh:66-77). -/
inductive TOwner where
  | vec (Size n : Int)
  | rowMajor (Rows Cols r c : Int)
  | colMajor (Rows Cols r c : Int)

/-- vector or matrix -/
inductive TAny where
  | v (x : TV)
  | m (x : TM)
  deriving Repr, DecidableEq

/-- the object itself.  `my_stride` etc. are never read because no stride is `-1` (reference.hh passes zeros). -/
def TOwner.view : TOwner → TAny
  | .vec Size n => .v ⟨Size, 1, true, 0, n, 0⟩
  | .rowMajor Rows Cols r c => .m ⟨Rows, Cols, if Cols = -1 then -2 else Cols, 1, 0, r, c, 0, 0⟩
  | .colMajor Rows Cols r c => .m ⟨Rows, Cols, 1, if Rows = -1 then -2 else Rows, 0, r, c, 0, 0⟩

/-- the user-visible operations, with template arguments (capitals) and run-time arguments.  `slice(start, length)` is
`slice<Dynamic,Dynamic>` (vbase.hh:202-208, mbase.hh:220-226). -/
inductive TOp where
  | slice (Start Length start length : Int)
  | sliceS (Start Length : Int)
  | asRow
  | asCol
  | asSlice
  | row (r : Int)
  | mslice (Rstart Cstart Rlength Clength rs cs rl cl : Int)
  | msliceS (Rstart Cstart Rlength Clength : Int)
  | T
  | diag

def Res.map {α β : Type} (f : α → β) : Res α → Res β
  | .ok a => .ok (f a)
  | .compileError => .compileError
  | .abort => .abort
  | .ub => .ub

def Res.bind {α β : Type} (r : Res α) (f : α → Res β) : Res β :=
  match r with
  | .ok a => f a
  | .compileError => .compileError
  | .abort => .abort
  | .ub => .ub

/-- one operation; a vector operation on a matrix (or the reverse) does not compile -/
def TAny.apply : TAny → TOp → Res TAny
  | .v x, .slice S L s l => (x.slice S L s l).map .v
  | .v x, .sliceS S L => (x.sliceS S L).map .v
  | .v x, .asRow => .ok (.m x.asRow)
  | .v x, .asCol => .ok (.m x.asCol)
  | .v x, .asSlice => .ok (.v x.asSlice)
  | .m x, .row r => (x.row r).map .v
  | .m x, .mslice a b c d e f g h => (x.slice a b c d e f g h).map .m
  | .m x, .msliceS a b c d => (x.sliceS a b c d).map .m
  | .m x, .T => .ok (.m x.T)
  | .m x, .diag => .ok (.v x.diag)
  | _, _ => .compileError

/-- a chain `obj.op1().op2()…` -/
def TAny.chain (x : TAny) : List TOp → Res TAny
  | [] => .ok x
  | op :: ops => (x.apply op).bind fun y => y.chain ops

/-- `PointerToPlanarComplex::operator[]` (planar_complex.hh:54-57) through `v[i]` of a `ReferencePlanarComplex` vector or any
slice of it (vbase.hh:162-170): the real and imaginary arrays are read at the same address. -/
def planarRead {K : Type _} (re im : Int → K) (v : TV) (i : Int) : K × K := (re (v.addr i), im (v.addr i))

end TooN.Typed
