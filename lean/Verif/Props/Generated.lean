import Verif.Model.GenTables
import Verif.Model.Fill
import Verif.Proof.Ops
import Mathlib.Tactic
/-!
# C83: the machine generated families

`makeVectorAll` and `dataAll` (`Model/GenTables.lean`) are all functions of make_vector.hh and data_functions.hh; `Fn.call` runs one on
a list of arguments, element `none` being uninitialised.
-/
set_option linter.unusedSectionVars false
namespace TooN.Generated

/-- what the generator is meant to write -/
def Good (f : Fn) : Bool :=
  f.loc == f.ret && f.params == List.range' 1 f.ret && f.lhs == List.range' 0 f.ret && f.rhs == List.range' 1 f.ret

theorem lookup_zip {K : Type} (args : List K) (s n k : ℕ) (hn : args.length = n) (hk : k < n) :
    ((List.range' s n).zip args).lookup (s + k) = args[k]? := by
  induction args generalizing s n k with
  | nil => simp at hn; omega
  | cons x xs ih =>
    obtain ⟨m, rfl⟩ : ∃ m, n = m + 1 := ⟨xs.length, by simpa using hn.symm⟩
    rw [List.range'_succ, List.zip_cons_cons]
    cases k with
    | zero => simp
    | succ k =>
      rw [List.lookup_cons, show (s + (k + 1) == s) = false by simp, show s + (k + 1) = (s + 1) + k by omega]
      simpa using ih (s + 1) m k (by simpa using hn) (by omega)

theorem exec_good {K : Type} (f : Fn) (args : List K) (hp : f.params = List.range' 1 f.ret) (hl : f.loc = f.ret)
    (hn : args.length = f.ret) (s l : ℕ) (hs : s + l = f.ret) (m : ℕ → Option K) :
    f.exec args ((List.range' s l).zip (List.range' (s + 1) l)) m =
      some (fun j => if s ≤ j ∧ j < s + l then args[j]? else m j) := by
  induction l generalizing s m with
  | zero =>
    simp only [List.range'_zero, List.zip_nil_left, Fn.exec]
    congr 1; funext j; rw [if_neg (by omega)]
  | succ l ih =>
    rw [List.range'_succ, List.range'_succ, List.zip_cons_cons]
    have e : f.lookup args (s + 1) = args[s]? := by
      unfold Fn.lookup
      rw [hp, add_comm s 1]
      exact lookup_zip args 1 f.ret s hn (by omega)
    have e2 : args[s]? = some (args[s]'(by omega)) := List.getElem?_eq_getElem _
    unfold Fn.exec
    rw [if_pos (by omega), e, e2]
    show f.exec args _ _ = _
    rw [ih (s + 1) (by omega)]
    congr 1; funext j
    by_cases h1 : s + 1 ≤ j ∧ j < s + 1 + l
    · rw [if_pos h1, if_pos (by omega)]
    · rw [if_neg h1]
      by_cases h2 : j = s
      · subst h2; rw [if_pos rfl, if_pos (by omega), e2]
      · rw [if_neg h2, if_neg (by omega)]

theorem call_good {K : Type} (f : Fn) (hf : Good f = true) (args : List K) (hn : args.length = f.ret) :
    f.call args = some (args.length, fun j => args[j]?) := by
  simp only [Good, Bool.and_eq_true, beq_iff_eq] at hf
  obtain ⟨⟨⟨h1, h2⟩, h3⟩, h4⟩ := hf
  unfold Fn.call
  rw [if_pos ⟨by rw [h2, List.length_range', hn], h1.symm⟩, h3, h4,
    exec_good f args h2 h1 hn 0 f.ret (by omega)]
  rw [Option.map_some, hn]
  congr 2; funext j
  split_ifs with h
  · rfl
  · exact (List.getElem?_eq_none (by omega)).symm

theorem makeVector_good : (makeVectorAll.all Good) = true := by decide +kernel
theorem data_good : (dataAll.all Good) = true := by decide +kernel

/-- **C83** `makeVector`: there is one overload for `double` and one template for each number of arguments from 1 to 30, and no other;
each returns a vector of as many elements as there are arguments, element `i` being argument `i`; no element stays uninitialised and no
index is outside the vector -/
theorem c83_makeVector {K : Type} :
    (makeVectorAll.map fun f => (f.params.length, f.template)) = (List.range' 1 30).flatMap (fun n => [(n, false), (n, true)]) ∧
    ∀ f ∈ makeVectorAll, ∀ args : List K, args.length = f.params.length →
      ∃ v, f.call args = some (args.length, v) ∧ ∀ (i : ℕ) (h : i < args.length), v i = some args[i] := by
  refine ⟨by decide +kernel, fun f hf args hn => ?_⟩
  have hg := List.all_eq_true.1 makeVector_good f hf
  have hp : f.params.length = f.ret := by
    simp only [Good, Bool.and_eq_true, beq_iff_eq] at hg
    rw [hg.1.1.2, List.length_range']
  exact ⟨_, call_good f hg args (hn.trans hp), fun i h => List.getElem?_eq_getElem h⟩

/-- **C83** `Data`: the same for each number of arguments from 1 to 100 -/
theorem c83_data {K : Type} :
    (dataAll.map fun f => (f.params.length, f.template)) = (List.range' 1 100).flatMap (fun n => [(n, false), (n, true)]) ∧
    ∀ f ∈ dataAll, ∀ args : List K, args.length = f.params.length →
      ∃ v, f.call args = some (args.length, v) ∧ ∀ (i : ℕ) (h : i < args.length), v i = some args[i] := by
  refine ⟨by decide +kernel, fun f hf args hn => ?_⟩
  have hg := List.all_eq_true.1 data_good f hf
  have hp : f.params.length = f.ret := by
    simp only [Good, Bool.and_eq_true, beq_iff_eq] at hg
    rw [hg.1.1.2, List.length_range']
  exact ⟨_, call_good f hg args (hn.trans hp), fun i h => List.getElem?_eq_getElem h⟩

/-- **C83** the schema used for these functions elsewhere (`Model/Fill.lean`) agrees with every one of them -/
theorem c83_schema {K : Type} (f : Fn) (hf : f ∈ makeVectorAll) (args : List K) (d : K) (u : Vec K)
    (hn : args.length = f.params.length) :
    ∃ v, f.call args = some ((Fill.makeVector args d u).1, v) ∧
      ∀ i, i < args.length → v i = some ((Fill.makeVector args d u).2 i) := by
  obtain ⟨v, hv, h⟩ := c83_makeVector.2 f hf args hn
  refine ⟨v, hv, fun i hi => ?_⟩
  rw [h i hi]
  show _ = some (forN args.length (fun i v => Vec.set v i (args.getD i d)) u i)
  rw [forN_vecset, if_pos hi]
  simp [List.getD, hi]

/-- three arguments -/
example : ∃ v, makeVectorD3.call [(5:ℤ), 7, 9] = some (3, v) ∧ v 0 = some 5 ∧ v 1 = some 7 ∧ v 2 = some 9 :=
  ⟨_, rfl, rfl, rfl, rfl⟩

/-! ### `transformCovariance` -/
open Finset
section cov
variable {K : Type} [Zero K] [Add K] [Mul K]

theorem covBlock_apply (n N : ℕ) (A B : Mat K) (u : Vec K) (i : ℕ) (hi : i < n) (M : Mat K) (r c : ℕ) :
    covBlock n N A B u i M r c =
      if r = i ∧ i ≤ c ∧ c < n then Ops.dot N (Ops.mulMV N N B (A i) u) (A c)
      else if c = i ∧ i ≤ r ∧ r < n then Ops.dot N (Ops.mulMV N N B (A i) u) (A r) else M r c := by
  unfold covBlock
  refine forRange_inv (fun k (D : Mat K) => ∀ r c, D r c =
      if r = i ∧ i ≤ c ∧ c < k then Ops.dot N (Ops.mulMV N N B (A i) u) (A c)
      else if c = i ∧ i ≤ r ∧ r < k then Ops.dot N (Ops.mulMV N N B (A i) u) (A r) else M r c) (i + 1) n hi _ _ ?_ ?_ r c
  · intro r c
    by_cases h : r = i ∧ c = i
    · obtain ⟨rfl, rfl⟩ := h
      rw [Mat.set_self, if_pos (by omega)]
    · rw [Mat.set_ne _ _ _ _ _ _ h, if_neg (by omega), if_neg (by omega)]
  · intro k D h1 h2 ih r c
    by_cases h : r = i ∧ c = k
    · obtain ⟨rfl, rfl⟩ := h
      rw [Mat.set_self, if_pos (by omega)]
    · rw [Mat.set_ne _ _ _ _ _ _ h]
      by_cases h' : r = k ∧ c = i
      · obtain ⟨rfl, rfl⟩ := h'
        rw [Mat.set_self, if_neg (by omega), if_pos (by omega)]
      · rw [Mat.set_ne _ _ _ _ _ _ h', ih]
        by_cases a : r = i ∧ i ≤ c ∧ c < k
        · rw [if_pos a, if_pos (by omega)]
        · rw [if_neg a, if_neg (show ¬(r = i ∧ i ≤ c ∧ c < k + 1) by omega)]
          by_cases b : c = i ∧ i ≤ r ∧ r < k
          · rw [if_pos b, if_pos (by omega)]
          · rw [if_neg b, if_neg (by omega)]

theorem cov_apply (n N : ℕ) (A B : Mat K) (u : Vec K) (M : Mat K) (r c : ℕ) (hr : r < n) (hc : c < n) :
    transformCovariance n N A B u M r c =
      Ops.dot N (Ops.mulMV N N B (A (min r c)) u) (A (max r c)) := by
  have key := forN_inv (fun k (D : Mat K) => ∀ r c, r < n → c < n → min r c < k → D r c =
      Ops.dot N (Ops.mulMV N N B (A (min r c)) u) (A (max r c))) n (covBlock n N A B u) M
    (by intro r c _ _ h; omega)
    (by
      intro k D hk ih r c hr hc h
      rw [covBlock_apply n N A B u k hk]
      by_cases a : r = k ∧ k ≤ c ∧ c < n
      · rw [if_pos a, show min r c = k by omega, show max r c = c by omega]
      · rw [if_neg a]
        by_cases b : c = k ∧ k ≤ r ∧ r < n
        · rw [if_pos b, show min r c = k by omega, show max r c = r by omega]
        · rw [if_neg b, ih r c hr hc (by omega)])
  exact key r c hr hc (by omega)

/-- **C83** the result is symmetric bit for bit, even if `B` is not symmetric and whatever the arithmetic -/
theorem c83_transformCovariance_symmetric (n N : ℕ) (A B : Mat K) (u : Vec K) (M : Mat K) (r c : ℕ) (hr : r < n) (hc : c < n) :
    transformCovariance n N A B u M r c = transformCovariance n N A B u M c r := by
  rw [cov_apply n N A B u M r c hr hc, cov_apply n N A B u M c r hc hr, min_comm, max_comm]

/-- **C83** `transformCovariance(A, B, M)` sets `M` to `A B Aᵀ` for every symmetric `B`, whatever `M` contained -/
theorem c83_transformCovariance {K : Type} [CommSemiring K] (n N : ℕ) (A B : Mat K) (hB : ∀ i j, i < N → j < N → B i j = B j i) (u : Vec K) (M : Mat K)
    (r c : ℕ) (hr : r < n) (hc : c < n) :
    transformCovariance n N A B u M r c = ∑ i ∈ range N, ∑ j ∈ range N, A r i * B i j * A c j := by
  rw [cov_apply n N A B u M r c hr hc, dot_eq]
  have h : ∀ p q : ℕ, ∑ i ∈ range N, Ops.mulMV N N B (A p) u i * A q i =
      ∑ i ∈ range N, ∑ j ∈ range N, A p i * B i j * A q j := by
    intro p q
    rw [sum_comm]
    refine sum_congr rfl fun i hi => ?_
    have hi := mem_range.1 hi
    rw [Ops.mulMV, forN_vecset, if_pos hi, dot_eq, sum_mul]
    refine sum_congr rfl fun j hj => ?_
    rw [hB i j hi (mem_range.1 hj)]; ring
  rw [h]
  rcases le_total r c with hrc | hrc
  · rw [min_eq_left hrc, max_eq_right hrc]
  · rw [min_eq_right hrc, max_eq_left hrc, sum_comm]
    refine sum_congr rfl fun i hi => sum_congr rfl fun j hj => ?_
    rw [hB j i (mem_range.1 hj) (mem_range.1 hi)]; ring

/-- symmetry of `B` is needed -/
example : transformCovariance 2 2 (fun r c => if r = c then (1:ℤ) else 0) (fun r c => if r = 0 ∧ c = 1 then 1 else 0) (fun _ => 0)
      (fun _ _ => 0) 0 1 ≠
    ∑ i ∈ range 2, ∑ j ∈ range 2, (if 0 = i then (1:ℤ) else 0) * (if i = 0 ∧ j = 1 then 1 else 0) * (if 1 = j then 1 else 0) := by
  decide +kernel
/-- and it is met by `[[2,1],[1,3]]`, with a `3×2` matrix `A` -/
example : transformCovariance 3 2 (fun r c => ((r + 2 * c : ℕ) : ℤ)) (fun r c => if r = c then 2 + r else 1) (fun _ => 0)
      (fun _ _ => 0) 2 1 = 50 := by decide +kernel

end cov
end TooN.Generated
