import Verif.Model.Assign
import Mathlib.Data.List.Basic
import Mathlib.Tactic.Common
namespace TooN

theorem forN_eq_foldl {σ : Type _} (n : Nat) (f : Nat → σ → σ) (s : σ) :
    forN n f s = (List.range n).foldl (fun s i => f i s) s := by
  induction n with
  | zero => rfl
  | succ n ih => rw [List.range_succ, List.foldl_append, ← ih]; rfl

/-- row-major list of index pairs -/
def pairs (R C : Nat) : List (Nat × Nat) :=
  (List.range R).flatMap fun r => (List.range C).map fun c => (r, c)

theorem forN_nested {σ : Type _} (R C : Nat) (f : Nat → Nat → σ → σ) (s : σ) :
    forN R (fun r s => forN C (f r) s) s = (pairs R C).foldl (fun s p => f p.1 p.2 s) s := by
  rw [forN_eq_foldl, pairs, List.foldl_flatMap]
  congr 1
  funext s r
  rw [forN_eq_foldl, List.foldl_map]

theorem mem_pairs (R C r c : Nat) : (r, c) ∈ pairs R C ↔ r < R ∧ c < C := by
  simp [pairs]

namespace View
variable {K : Type _}

/-- A sequence of updates `mem[d] = op mem[d] mem[s]`. -/
def exec (op : K → K → K) (L : List (Nat × Nat)) (mem : Mem K) : Mem K :=
  L.foldl (fun m p => poke m p.1 (op (m p.1) (m p.2))) mem

theorem exec_frame (op : K → K → K) (L : List (Nat × Nat)) (mem : Mem K) (q : Nat)
    (h : ∀ p ∈ L, p.1 ≠ q) : exec op L mem q = mem q := by
  induction L generalizing mem with
  | nil => rfl
  | cons p L ih =>
    simp only [exec, List.foldl_cons]
    have := ih (poke mem p.1 (op (mem p.1) (mem p.2))) (fun p' hp => h p' (List.mem_cons_of_mem _ hp))
    rw [exec] at this
    rw [this, poke, if_neg (fun e => h p List.mem_cons_self e.symm)]

theorem exec_correct (op : K → K → K) (L : List (Nat × Nat)) (mem : Mem K)
    (hd : L.Pairwise (fun a b => a.1 ≠ b.1 ∧ a.1 ≠ b.2)) (p : Nat × Nat) (hp : p ∈ L) :
    exec op L mem p.1 = op (mem p.1) (mem p.2) := by
  induction L generalizing mem with
  | nil => cases hp
  | cons a L ih =>
    rw [List.pairwise_cons] at hd
    simp only [exec, List.foldl_cons]
    rcases List.mem_cons.1 hp with rfl | hp'
    · have := exec_frame op L (poke mem p.1 (op (mem p.1) (mem p.2))) p.1
        (fun q hq => (hd.1 q hq).1.symm)
      rw [exec] at this
      rw [this, poke, if_pos rfl]
    · have := ih (poke mem a.1 (op (mem a.1) (mem a.2))) hd.2 hp'
      rw [exec] at this
      rw [this]
      have h1 := hd.1 p hp'
      simp [poke, h1.1.symm, h1.2.symm]

/-- The vector loops as an update sequence. -/
def vlist (dst src : VView) : List (Nat × Nat) :=
  (List.range dst.len).map fun i => (dst.addr i, src.addr i)

theorem compoundV_eq (op : K → K → K) (dst src : VView) (mem : Mem K) :
    compoundV op dst src mem = exec op (vlist dst src) mem := by
  rw [compoundV, forN_eq_foldl, exec, vlist, List.foldl_map]

theorem assignV_eq (dst src : VView) (mem : Mem K) :
    assignV dst src mem = exec (fun _ y => y) (vlist dst src) mem := by
  rw [assignV, forN_eq_foldl, exec, vlist, List.foldl_map]

def mlist (dst src : MView) : List (Nat × Nat) :=
  (pairs dst.rows dst.cols).map fun p => (dst.addr p.1 p.2, src.addr p.1 p.2)

theorem compoundM_eq (op : K → K → K) (dst src : MView) (mem : Mem K) :
    compoundM op dst src mem = exec op (mlist dst src) mem := by
  rw [compoundM, forN_nested dst.rows dst.cols
    (fun r c m => poke m (dst.addr r c) (op (m (dst.addr r c)) (m (src.addr r c)))),
    exec, mlist, List.foldl_map]

theorem assignM_eq (dst src : MView) (mem : Mem K) :
    assignM dst src mem = exec (fun _ y => y) (mlist dst src) mem := by
  rw [assignM, forN_nested dst.rows dst.cols
    (fun r c m => poke m (dst.addr r c) (m (src.addr r c))), exec, mlist, List.foldl_map]

theorem scalarV_eq (f : K → K) (dst : VView) (mem : Mem K) :
    scalarV f dst mem = exec (fun x _ => f x) (vlist dst dst) mem := by
  rw [scalarV, forN_eq_foldl, exec, vlist, List.foldl_map]

theorem scalarM_eq (f : K → K) (dst : MView) (mem : Mem K) :
    scalarM f dst mem = exec (fun x _ => f x) (mlist dst dst) mem := by
  rw [scalarM, forN_nested dst.rows dst.cols
    (fun r c m => poke m (dst.addr r c) (f (m (dst.addr r c)))), exec, mlist, List.foldl_map]

/-- order of `pairs` -/
def before (p q : Nat × Nat) : Prop := p.1 < q.1 ∨ (p.1 = q.1 ∧ p.2 < q.2)

theorem pairs_pairwise (R C : Nat) : (pairs R C).Pairwise before := by
  unfold pairs
  rw [List.pairwise_flatMap]
  constructor
  · intro r _
    rw [List.pairwise_map]
    exact (List.pairwise_lt_range (n := C)).imp (fun h => Or.inr ⟨rfl, h⟩)
  · refine (List.pairwise_lt_range (n := R)).imp ?_
    intro a b hab x hx y hy
    simp only [List.mem_map, List.mem_range] at hx hy
    obtain ⟨c, _, rfl⟩ := hx
    obtain ⟨c', _, rfl⟩ := hy
    exact Or.inl hab

end View
end TooN
