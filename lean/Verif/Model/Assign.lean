import Verif.Model.View
/-!
# Assignment, compound assignment and swap through views of one memory

`mem` is the whole memory (all buffers live in one address space), `dst`/`src` are arbitrary views of
it, possibly overlapping.  Sizes are assumed checked (see `Model/Checks.lean`).
-/
namespace TooN.View
variable {K : Type _}

/-- one store -/
def poke (mem : Mem K) (p : Nat) (x : K) : Mem K := fun q => if q = p then x else mem q

/-- `dst = src` (vector.hh:263-285): ascending elementwise copy. -/
def assignV (dst src : VView) (mem : Mem K) : Mem K :=
  forN dst.len (fun i m => poke m (dst.addr i) (m (src.addr i))) mem

/-- `dst = src` for matrices (matrix.hh:164-174, 184-195): row by row. -/
def assignM (dst src : MView) (mem : Mem K) : Mem K :=
  forN dst.rows (fun r m => forN dst.cols (fun c m => poke m (dst.addr r c) (m (src.addr r c))) m) mem

/-- `dst op= src` (vector.hh:316-323, 346-353: `+=`, `-=`) for an arbitrary scalar operation. -/
def compoundV (op : K → K → K) (dst src : VView) (mem : Mem K) : Mem K :=
  forN dst.len (fun i m => poke m (dst.addr i) (op (m (dst.addr i)) (m (src.addr i)))) mem

/-- `dst op= src` for matrices (matrix.hh:219-230, 246-257). -/
def compoundM (op : K → K → K) (dst src : MView) (mem : Mem K) : Mem K :=
  forN dst.rows (fun r m => forN dst.cols
    (fun c m => poke m (dst.addr r c) (op (m (dst.addr r c)) (m (src.addr r c)))) m) mem

/-- `dst op= scalar` (vector.hh:303-314: `*=`, `/=`; the scalar is passed by value). -/
def scalarV (f : K → K) (dst : VView) (mem : Mem K) : Mem K :=
  forN dst.len (fun i m => poke m (dst.addr i) (f (m (dst.addr i)))) mem

/-- `dst op= scalar` for matrices (matrix.hh:201-217). -/
def scalarM (f : K → K) (dst : MView) (mem : Mem K) : Mem K :=
  forN dst.rows (fun r m => forN dst.cols
    (fun c m => poke m (dst.addr r c) (f (m (dst.addr r c)))) m) mem

/-- elementwise `swap(v1, v2)` (operators.hh:722-731). -/
def swapV (a b : VView) (mem : Mem K) : Mem K :=
  forN a.len (fun i m =>
    poke (poke m (a.addr i) (m (b.addr i))) (b.addr i) (m (a.addr i))) mem

end TooN.View

namespace TooN.Resize
variable {K : Type _}

/-- Build configuration: `none` = default (`debug_initialize` does nothing, debug.hh:125-127);
`some x` = `TOON_INITIALIZE_NAN/SNAN/VAL` (debug.hh:53-72), which stores `x` everywhere. -/
abbrev Config (K : Type _) := Option K

/-- `debug_initialize(data()+from, n-from)` on a vector of `n` elements. -/
def debugInit (cfg : Config K) (fr : Nat) (l : List K) : List K :=
  match cfg with
  | none => l
  | some x => l.take fr ++ List.replicate (l.length - fr) x

/-- `std::vector::resize(n)`: keeps a prefix, new elements are value-initialised (`zero`). -/
def stdResize (zero : K) (l : List K) (n : Nat) : List K :=
  l.take n ++ List.replicate (n - l.length) zero

/-- `data()` = `&numbers[0]` (allocator.hh:316-322): undefined for an empty `std::vector`. -/
def dataPtr (l : List K) : Outcome Unit := if l = [] then .ub else .ok ()

/-- `Vector<Resizable>::resize(s)` (allocator.hh:357-363). -/
def resize (cfg : Config K) (zero : K) (l : List K) (s : Nat) : Outcome (List K) :=
  let l' := stdResize zero l s
  if s > l.length then (dataPtr l').bind fun _ => .ok (debugInit cfg l.length l') else .ok l'

/-- `try_destructive_resize(newsize)` (allocator.hh:349-353). -/
def tryDestructiveResize (cfg : Config K) (zero : K) (l : List K) (n : Nat) : Outcome (List K) :=
  let l' := stdResize zero l n
  (dataPtr l').bind fun _ => .ok (debugInit cfg 0 l')

/-- `my_data[i] = x` with an out-of-range read or write being undefined: `x?` is what was read. -/
def store (v : List K) (i : Nat) (x? : Option K) : Outcome (List K) :=
  match x? with
  | some x => if i < v.length then .ok (v.set i x) else .ub
  | none => .ub

/-- `v = from` for a Resizable `v` and an unrelated vector with contents `from`
(vector.hh:276-285, 263-271): resize, size test (cannot fail), copy loop. -/
def assignOther (cfg : Config K) (zero : K) (v src : List K) : Outcome (List K) :=
  (tryDestructiveResize cfg zero v src.length).bind fun v' =>
  if v'.length ≠ src.length then .abort
  else forN src.length (fun i (o : Outcome (List K)) => o.bind fun v' => store v' i src[i]?) (.ok v')

/-- `v = v.slice(start, len)` for a Resizable `v`; `start = 0, len = v.size()` is `v = v`.
The source aliases the buffer being resized: elements are read from it *after* the resize, and
reading past its new end is undefined. -/
def assignOwnSlice (cfg : Config K) (zero : K) (v : List K) (start len : Nat) : Outcome (List K) :=
  (tryDestructiveResize cfg zero v len).bind fun v' =>
  if v'.length ≠ len then .abort
  else forN len (fun i (o : Outcome (List K)) => o.bind fun v' => store v' i v'[start + i]?) (.ok v')

end TooN.Resize
