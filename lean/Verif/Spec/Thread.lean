import Mathlib.Data.Set.Basic
import Mathlib.Logic.Relation
import Mathlib.Logic.Function.Basic
/-!
# Threads sharing a memory

A generic description of concurrency, independent of TooN.  A thread is a tree of atomic actions; after
each action it goes on according to the action's result.  Threads run interleaved: at every moment any
thread that is not finished may perform its next action (`Step`); a *schedule* is a sequence of such
choices, and nothing is assumed about it.

`look m l` is what the memory `m` holds at the location `l`; every action declares the locations it reads
and the ones it writes, and `Lawful` says that these declarations are honest.
-/
namespace TooN.Thread

/-- A kind of memory with its atomic actions. -/
structure Sys where
  M : Type
  Loc : Type
  V : Type
  look : M → Loc → V
  A : Type
  Res : A → Type
  /-- what the action does to the memory, and its result -/
  sem : (a : A) → M → M × Res a
  R : A → Set Loc
  W : A → Set Loc

/-- An action changes nothing outside `W`, and its effect and result depend on `R` only. -/
structure Sys.Lawful (S : Sys) : Prop where
  res : ∀ a m m', (∀ l ∈ S.R a, S.look m l = S.look m' l) → (S.sem a m).2 = (S.sem a m').2
  upd : ∀ a m m', (∀ l ∈ S.R a, S.look m l = S.look m' l) →
    ∀ l ∈ S.W a, S.look (S.sem a m).1 l = S.look (S.sem a m').1 l
  frame : ∀ a m l, l ∉ S.W a → S.look (S.sem a m).1 l = S.look m l

/-- A thread that returns an `α`. -/
inductive Th (S : Sys) (α : Type) : Type
  | ret (x : α) : Th S α
  | act (a : S.A) (k : S.Res a → Th S α) : Th S α

variable {S : Sys} {α β : Type}

/-- sequential composition -/
def Th.bind : Th S α → (α → Th S β) → Th S β
  | .ret x, f => f x
  | .act a k, f => .act a fun r => (k r).bind f

/-- The thread runs alone. -/
def Th.run : Th S α → S.M → S.M × α
  | .ret x, m => (m, x)
  | .act a k, m => (k (S.sem a m).2).run (S.sem a m).1
/-- the locations it reads when it runs alone -/
def Th.reads : Th S α → S.M → Set S.Loc
  | .ret _, _ => ∅
  | .act a k, m => S.R a ∪ (k (S.sem a m).2).reads (S.sem a m).1
/-- the locations it writes when it runs alone -/
def Th.writes : Th S α → S.M → Set S.Loc
  | .ret _, _ => ∅
  | .act a k, m => S.W a ∪ (k (S.sem a m).2).writes (S.sem a m).1
/-- the number of its actions when it runs alone -/
def Th.len : Th S α → S.M → Nat
  | .ret _, _ => 0
  | .act a k, m => (k (S.sem a m).2).len (S.sem a m).1 + 1

variable {ι : Type} [DecidableEq ι]

/-- the memory, and what remains to be done by every thread -/
structure Config (S : Sys) (ι α : Type) where
  mem : S.M
  th : ι → Th S α

/-- One thread performs one action. -/
inductive Step : Config S ι α → Config S ι α → Prop
  | mk (c : Config S ι α) (i : ι) (a : S.A) (k : S.Res a → Th S α) (h : c.th i = .act a k) :
      Step c ⟨(S.sem a c.mem).1, Function.update c.th i (k (S.sem a c.mem).2)⟩

/-- `n` actions, of any threads in any order -/
inductive Steps : Config S ι α → Nat → Config S ι α → Prop
  | refl (c) : Steps c 0 c
  | step {c n c' c''} : Steps c n c' → Step c' c'' → Steps c (n + 1) c''

/-- Two threads are about to access the same location, one of them writing: a data race. -/
def Race (c : Config S ι α) : Prop :=
  ∃ i j a k b k', i ≠ j ∧ c.th i = .act a k ∧ c.th j = .act b k' ∧
    ∃ l, l ∈ S.W a ∧ (l ∈ S.R b ∨ l ∈ S.W b)

/-- No thread, running alone, writes a location that another one, running alone, reads or writes. -/
def Separate (c : Config S ι α) : Prop :=
  ∀ i j, i ≠ j → ∀ l ∈ (c.th i).writes c.mem,
    l ∉ (c.th j).reads c.mem ∧ l ∉ (c.th j).writes c.mem

end TooN.Thread
