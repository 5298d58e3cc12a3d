import Verif.Model.Swap
import Verif.Model.Assign
import Mathlib.Tactic
import Mathlib.Logic.Equiv.Basic
set_option linter.unusedVariables false
/-!
# C51: the rest of `swap`
-/
namespace TooN.Swap
variable {K : Type _}

theorem loopSwap_eq (a b : List K) (h : a.length = b.length) : loopSwap a b = .ok (b, a) := by
  unfold loopSwap
  rw [if_neg (by simp [h])]
  congr 1
  have key : ∀ m, m ≤ a.length → forN m swapAt (a, b) = (b.take m ++ a.drop m, a.take m ++ b.drop m) := by
    intro m
    induction m with
    | zero => intro _; simp [forN]
    | succ m ih =>
      intro hm
      have ha : m < a.length := by omega
      have hb : m < b.length := by omega
      rw [forN, ih (by omega), swapAt]
      have e1 : (b.take m ++ a.drop m)[m]? = some a[m] := by
        rw [List.getElem?_append_right (by simp), List.getElem?_drop]; simp [ha, hb.le]
      have e2 : (a.take m ++ b.drop m)[m]? = some b[m] := by
        rw [List.getElem?_append_right (by simp), List.getElem?_drop]; simp [hb, ha.le]
      simp only [e1, e2]
      have s : ∀ (l l0 : List K) (hl : m < l.length) (h0 : m < l0.length),
          (l.take m ++ l0.drop m).set m l[m] = l.take (m+1) ++ l0.drop (m+1) := by
        intro l l0 hl h0
        have hlen : (l.take m).length = m := by simp; omega
        rw [List.set_append_right _ _ (by omega), hlen, Nat.sub_self, List.drop_eq_getElem_cons h0,
          List.set_cons_zero, List.take_succ_eq_append_getElem hl, List.append_assoc]
        rfl
      rw [s b a hb ha, s a b ha hb]
  rw [key a.length le_rfl, List.drop_length, List.append_nil, List.take_length, h, List.take_length,
    List.drop_length, List.append_nil]

/-- **C51** every overload of `swap` on two distinct vectors of any storage: unequal sizes are rejected,
except between two `Vector<Resizable>` of the same type; otherwise the contents (and so the sizes) are
exchanged. -/
theorem c51_all_overloads (k1 k2 : VK) (same : Bool) (a b : List K) :
    swapVec k1 k2 same a b =
      if a.length = b.length ∨ (k1 = .resizable ∧ k2 = .resizable ∧ same = true) then .ok (b, a)
      else .abort := by
  unfold swapVec
  by_cases hk : k1 = k2 ∧ same ∧ hasSwap k1
  · rw [if_pos hk]
    obtain ⟨rfl, hs, h2⟩ := hk
    cases k1 with
    | fixed n => cases h2
    | view => cases h2
    | resizable => simp [methodSwap, hs]
    | dynamic =>
      by_cases e : a.length = b.length <;> simp [methodSwap, e]
  · rw [if_neg hk]
    have hr : ¬ (k1 = .resizable ∧ k2 = .resizable ∧ same = true) := by
      rintro ⟨rfl, rfl, h⟩; exact hk ⟨rfl, h, rfl⟩
    by_cases e : a.length = b.length
    · rw [if_pos (Or.inl e), loopSwap_eq a b e]
    · rw [if_neg (by simp [e]; intro h1 h2; cases same <;> simp_all)]
      simp [loopSwap, e]

/-- **C51** swapping twice restores both vectors. -/
theorem c51_twice (k1 k2 : VK) (same : Bool) (a b x y : List K)
    (h : swapVec k1 k2 same a b = .ok (x, y)) : swapVec k1 k2 same x y = .ok (a, b) := by
  rw [c51_all_overloads] at h ⊢
  split at h
  · rename_i hc
    cases h
    rw [if_pos]
    rcases hc with e | e
    · exact Or.inl e.symm
    · exact Or.inr e
  · cases h

example : swapVec .resizable .resizable true [1, 2] [3] = .ok ([3], [1, 2]) := by decide
example : swapVec .resizable .dynamic false [1, 2] [3] = (.abort : Outcome (List Nat × List Nat)) := by decide

end TooN.Swap

namespace TooN.View
variable {K : Type _}

theorem poke_swap (m : Mem K) (p q : Nat) :
    poke (poke m p (m q)) q (m p) = fun r => m (Equiv.swap p q r) := by
  funext r
  simp only [poke]
  by_cases h1 : r = q
  · subst h1; simp
  · by_cases h2 : r = p
    · subst h2; simp [h1]
    · simp [h1, h2, Equiv.swap_apply_of_ne_of_ne h2 h1]

/-- **C51** swapping two views that overlap in any way only rearranges the memory: no value is lost or
duplicated, and nothing outside the two views moves. -/
theorem c51_overlap (a b : VView) (mem : Mem K) :
    ∃ σ : Equiv.Perm Nat, (∀ q, swapV a b mem q = mem (σ q)) ∧
      ∀ q, (∀ i, i < a.len → a.addr i ≠ q ∧ b.addr i ≠ q) → σ q = q := by
  unfold swapV
  have key : ∀ k, ∃ σ : Equiv.Perm Nat, (∀ q, forN k (fun i m =>
      poke (poke m (a.addr i) (m (b.addr i))) (b.addr i) (m (a.addr i))) mem q = mem (σ q)) ∧
      ∀ q, (∀ i, i < k → a.addr i ≠ q ∧ b.addr i ≠ q) → σ q = q := by
    intro k
    induction k with
    | zero => exact ⟨Equiv.refl _, fun _ => rfl, fun _ _ => rfl⟩
    | succ k ih =>
      obtain ⟨σ, h1, h2⟩ := ih
      refine ⟨(Equiv.swap (a.addr k) (b.addr k)).trans σ, ?_, ?_⟩
      · intro q
        simp only [forN]
        rw [poke_swap]
        exact h1 _
      · intro q hq
        have := hq k (by omega)
        simp only [Equiv.trans_apply]
        rw [Equiv.swap_apply_of_ne_of_ne this.1.symm this.2.symm]
        exact h2 q fun i hi => hq i (by omega)
  exact key a.len

/-- **C51** swapping a view with itself does nothing. -/
theorem c51_self (a : VView) (mem : Mem K) : swapV a a mem = mem := by
  unfold swapV
  have key : ∀ k, forN k (fun i m =>
      poke (poke m (a.addr i) (m (a.addr i))) (a.addr i) (m (a.addr i))) mem = mem := by
    intro k
    induction k with
    | zero => rfl
    | succ k ih =>
      simp only [forN]
      rw [ih, poke_swap]
      simp
  exact key a.len

/-- **C51** for partly overlapping views swapping twice is not the identity: `v.slice(0,2)` with
`v.slice(1,2)` rotates `v`. -/
theorem c51_overlap_twice_wrong :
    (List.range 3).map (swapV (VView.mk 0 2 1) (VView.mk 1 2 1) (fun i => i)) = [1, 2, 0] ∧
    (List.range 3).map (swapV (VView.mk 0 2 1) (VView.mk 1 2 1)
      (swapV (VView.mk 0 2 1) (VView.mk 1 2 1) (fun i => i))) = [2, 0, 1] := by
  decide

end TooN.View
