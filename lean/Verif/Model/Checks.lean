import Verif.Model.Loop
/-!
# Static and run-time size checks

Models `TooN/internal/slice_error.hh`, `TooN/internal/size_mismatch.hh`, `TooN/internal/debug.hh`
(`check_index`) and the size algebra of `TooN/TooN.h`.  Default configuration (no `TOON_*` macro
defined), so a failed run-time check aborts and a failed static check does not compile.
-/
namespace TooN.Checks

/-- `Dynamic` (TooN.h:284). -/
def Dynamic : Int := -1
/-- `Resizable` (TooN.h:285). -/
def Resizable : Int := -0x7fffffff

inductive Check where
  | ok            -- the check lets the program continue
  | compileError  -- the template does not compile
  | abort         -- std::abort() at run time
  deriving Repr, DecidableEq

/-- `CheckSlice::N<Num>::n(num)` (slice_error.hh:61-67). -/
def pick (Num num : Int) : Int := if Num = Dynamic ∨ Num = Resizable then num else Num

/-- A sequence of `BadSlice<b>::check()` uses: compile error if any `b` is true
(slice_error.hh:32-45). -/
def badSlice (bs : List Bool) (k : Check) : Check := if bs.any id then .compileError else k

/-- `CheckSlice<Size,Start,Length>::check()` (slice_error.hh:75-82). -/
def checkStatic (Size Start Length : Int) (k : Check) : Check :=
  badSlice [!(Size == Dynamic || Size == Resizable || Size > 0),
            !(Start >= 0),
            !(Length >= 0),
            (Size != Dynamic && Size != Resizable && Start + Length > Size)] k

/-- `CheckSlice<Size,Start,Length>::check(size,start,length)` (slice_error.hh:93-135). -/
def check (Size Start Length size start length : Int) : Check :=
  badSlice [!(Size == Dynamic || Size == Resizable || Size > 0),
            !(Start == Dynamic || Start >= 0),
            !(Length == Dynamic || Length >= 0),
            (Size != Dynamic && Size != Resizable && Length != Dynamic && Length > Size),
            (Start != Dynamic && Size != Dynamic && Size != Resizable && Start > Size),
            (Size != Dynamic && Size != Resizable && Start != Dynamic && Length != Dynamic
              && Start + Length > Size)] <|
  if Start != Dynamic && Size != Resizable && Start != start then .abort
  else if Length != Dynamic && Size != Resizable && Length != length then .abort
  else if Size != Dynamic && Size != Resizable && Size != size then .abort
  else if pick Start start + pick Length length > pick Size size
      || pick Start start < 0 || pick Length length < 0 then .abort
  else .ok

/-- `v.slice(start,length)` (vbase.hh:202-208): all-dynamic start and length. -/
def sliceDyn (Size size start length : Int) : Check := check Size Dynamic Dynamic size start length

/-- `v.slice<Start,Length>()` (vbase.hh:190-200): the strict static check followed by the general
one with the template arguments passed as run-time arguments. -/
def sliceStatic (Size size Start Length : Int) : Check :=
  checkStatic Size Start Length (check Size Start Length size Start Length)

/-- `int` arithmetic: the largest and smallest value of a 32-bit `int`. -/
def intMax : Int := 2147483647
def intMin : Int := -2147483648

/-- Two's complement wrap-around of a mathematical integer to 32 bits. -/
def wrap32 (x : Int) : Int := (x + 2147483648) % 4294967296 - 2147483648

/-- The run-time condition of slice_error.hh:124-126 for a fully dynamic slice, as machine code
computes it when `start + length` wraps (formally undefined behaviour in C++). -/
def sliceDynWrapped (size start length : Int) : Check :=
  if wrap32 (start + length) > size || start < 0 || length < 0 then .abort else .ok

/-- `SizeMismatch_<Size1,Size2>::test` (size_mismatch.hh:33-82), by template specialisation. -/
def sizeMismatch_ (Size1 Size2 size1 size2 : Int) : Check :=
  if Size1 = Dynamic ∧ Size2 = Dynamic then (if size1 ≠ size2 then .abort else .ok)
  else if Size1 = Size2 then .ok
  else if Size1 = Dynamic then (if size1 ≠ size2 then .abort else .ok)
  else if Size2 = Dynamic then (if size1 ≠ size2 then .abort else .ok)
  else .compileError

/-- `SizeMismatch<Size1,Size2>::test` (size_mismatch.hh:102-110). -/
def sizeMismatch (Size1 Size2 s1 s2 : Int) : Check :=
  sizeMismatch_ (if Size1 = Dynamic ∨ Size1 = Resizable then Dynamic else Size1)
    (if Size2 = Dynamic ∨ Size2 = Resizable then Dynamic else Size2) s1 s2

/-- `IsStatic<i>::is` (TooN.h:294-297). -/
def isStatic (i : Int) : Bool := i != Dynamic && i != Resizable

/-- `Sizer<i,i>::size` (TooN.h:306-308). -/
def sizer1 (i : Int) : Int := if isStatic i then i else Dynamic

/-- `SimpleSizer<i,j>::size` (TooN.h:289-292). -/
def simpleSizer (i j : Int) : Int :=
  if i = Dynamic ∧ j = Dynamic then -1 else if i = Dynamic then j else if j = Dynamic then i else i

/-- `Sizer<i,j>::size` (TooN.h:300-308). -/
def sizer (i j : Int) : Int :=
  if i = j then sizer1 i else simpleSizer (sizer1 i) (sizer1 j)

/-- What `size()` returns for an object with size parameter `Size` that was given the run-time
size `n` (allocator.hh:142-145 static, 218-220 dynamic, 295-297 resizable). -/
def runtimeSize (Size n : Int) : Int := if isStatic Size then Size else n

end TooN.Checks
