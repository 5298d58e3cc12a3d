import Verif.Spec.Thread
/-!
# `TOON_INITIALIZE_RANDOM`

`debug_initialize` in the configuration that fills new vectors and matrices with pseudo-random bytes
(internal/debug.hh:73-121).  It is called by the constructors and by `resize` (allocator.hh:65, 75, 87, 208, 215,
285, 292, 352, 362, 611, 619) with `bytes = sizeof(P)*n`.

Simplifications: the bytes of the union `intbits` are those of a little-endian machine; the initial
seed (the time of day) is a parameter; `static` in a function template makes one copy of the
generator per element type, and the model is about one element type.
-/
namespace TooN.DebugRandom
open TooN.Thread

/-- `random.i = (1664525L * random.i + 1013904223L) & 0xffffffff` (debug.hh:117) -/
def next (s : Nat) : Nat := (1664525 * s + 1013904223) % 4294967296
/-- the initial value of the generator (debug.hh:90) -/
def seed (time : Nat) : Nat := ((time % 4294967296) * 1664525 + 1013904223) % 4294967296
/-- `random.c[k]` -/
def byteOf (s k : Nat) : Nat := s / 256 ^ k % 256

/-- memory as bytes relative to `cdata` -/
abbrev Bytes := Nat → Option Nat
def put (m : Bytes) (i b : Nat) : Bytes := fun j => if j = i then some b else m j

/-- the statements from `case` label `random.c[k]` to the end of the loop body (debug.hh:109-116):
`cdata[i++] = random.c[k]`, …, `cdata[i++] = random.c[3]` -/
def group (s k i : Nat) (m : Bytes) : Nat → Nat × Bytes
  | 0 => (i, m)
  | n+1 => group s (k + 1) (i + 1) (put m i (byteOf s k)) n

/-- `for(…; i < bytes;) { … }` after the first, possibly partial, pass (debug.hh:101-119).  `fuel` bounds the
number of passes; `none` if it does not suffice. -/
def passes (bytes : Nat) : Nat → Nat → Nat → Bytes → Option (Nat × Bytes)
  | 0, s, i, m => if i < bytes then none else some (s, m)
  | fuel+1, s, i, m =>
    if i < bytes then
      let r := group s 0 i m 4
      passes bytes fuel (next s) r.1 r.2
    else some (s, m)

/-- `switch(bytes & 0x3)` jumps into the loop body: to the statement for `random.c[0]`, `[1]`, `[2]` or `[3]`
if `bytes & 3` is 0, 3, 2 or 1 (debug.hh:99, 109-116). -/
def entry (bytes : Nat) : Nat := match bytes % 4 with | 0 => 0 | 3 => 1 | 2 => 2 | _ => 3
/-- `debug_initialize` (debug.hh:87-121).  Result: the generator and the memory. -/
def fill (bytes s : Nat) (m : Bytes) : Option (Nat × Bytes) :=
  let r := group s (entry bytes) 0 m (4 - entry bytes)
  passes bytes bytes (next s) r.1 r.2

/-! ## Access by access, for threads -/

/-- shared memory: the generator, and the storage of the vectors (one per number) -/
structure Mem where
  gen : Nat
  buf : Nat → Bytes
inductive Loc | gen | byte (v i : Nat)
  deriving DecidableEq
inductive Val | nat (x : Nat) | byte (o : Option Nat)
inductive Act | readGen | writeGen (s : Nat) | writeByte (v i b : Nat)
abbrev Act.Res : Act → Type
  | .readGen => Nat
  | _ => Unit
abbrev sys : Sys where
  M := Mem
  Loc := Loc
  V := Val
  look := fun m l => match l with | .gen => .nat m.gen | .byte v i => .byte (m.buf v i)
  A := Act
  Res := Act.Res
  sem := fun a m => match a with
    | .readGen => (m, m.gen)
    | .writeGen s => (⟨s, m.buf⟩, ())
    | .writeByte v i b => (⟨m.gen, fun w => if w = v then put (m.buf v) i b else m.buf w⟩, ())
  R := fun a => match a with | .readGen => {.gen} | _ => ∅
  W := fun a => match a with | .readGen => ∅ | .writeGen _ => {.gen} | .writeByte v i _ => {.byte v i}

def groupT (v k i : Nat) : Nat → Th sys Nat
  | 0 => .ret i
  | n+1 => .act .readGen fun s => .act (.writeByte v i (byteOf s k)) fun _ => groupT v (k + 1) (i + 1) n
def stepGenT : Th sys Unit := .act .readGen fun s => .act (.writeGen (next s)) fun _ => .ret ()
def passesT (v bytes : Nat) : Nat → Nat → Th sys Bool
  | 0, i => .ret (!decide (i < bytes))
  | fuel+1, i => if i < bytes then
      (groupT v 0 i 4).bind fun i => stepGenT.bind fun _ => passesT v bytes fuel i
    else .ret true
/-- `debug_initialize` on the storage of vector `v`, access by access; the result says whether the loop ended. -/
def fillT (v bytes : Nat) : Th sys Bool :=
  (groupT v (entry bytes) 0 (4 - entry bytes)).bind fun i => stepGenT.bind fun _ => passesT v bytes bytes i

end TooN.DebugRandom
