import Verif.Proof.SL
import Verif.Proof.DetExp
import Verif.Props.Elim
import Mathlib.LinearAlgebra.LinearIndependent.Defs
/-!
# C41: SL(N)
-/
set_option linter.unusedSectionVars false
namespace TooN.SL
open Matrix

/-- `G i` is what `generator(i)` returns, for all `i < dim` -/
def IsGenerators (fuel N : Nat) (G : Fin (dim N) → Matrix (Fin N) (Fin N) ℝ) : Prop :=
  ∀ i : Fin (dim N), ∃ g, generator fuel N (i : Nat) = .ok g ∧ G i = asM N N g

theorem gval_of {fuel N : Nat} (hf : N ≤ fuel) {G : Fin (dim N) → Matrix (Fin N) (Fin N) ℝ} (hG : IsGenerators fuel N G)
    (i : Fin (dim N)) (r c : Fin N) : G i r c = gval N i r c := by
  obtain ⟨g, h1, h2⟩ := hG i
  obtain ⟨g', h1', h2', -⟩ := generator_spec fuel N i hf i.2
  rw [h1] at h1'; cases h1'
  rw [h2]; exact h2' r c r.2 c.2

/-- **C41** `generator(i)` returns a traceless matrix for every `i < N*N-1` (its loop ends after at most `N` tests and no
access is out of range), and fails its assertion for every other `i` -/
theorem c41_generator_traceless (fuel N : Nat) (hf : N ≤ fuel) (i : Int) :
    (0 ≤ i ∧ i < (N * N - 1 : Nat) → ∃ g, generator fuel N i = .ok g ∧ (asM N N g).trace = 0) ∧
    (¬ (0 ≤ i ∧ i < (N * N - 1 : Nat)) → generator fuel N i = .abort) := by
  constructor
  · rintro ⟨h0, h1⟩
    obtain ⟨k, rfl⟩ := Int.eq_ofNat_of_zero_le h0
    have hk : k < dim N := by unfold dim; exact_mod_cast h1
    obtain ⟨g, h2, h3, h4⟩ := generator_spec fuel N k hf hk
    refine ⟨g, h2, ?_⟩
    have : (asM N N g).trace = ∑ r ∈ Finset.range N, gval N k r r := by
      rw [Matrix.trace, ← Fin.sum_univ_eq_sum_range (fun r => gval N k r r) N]
      exact Finset.sum_congr rfl fun r _ => h3 r r r.2 r.2
    rw [this]
    have hg : ∀ r, gval N k r r = (if r = k then (if k + 1 < N then 1 else 0) else 0) - (if r = k + 1 then 1 else 0) := by
      intro r
      unfold gval
      rw [if_pos rfl]
      congr 1
      · by_cases h : r = k
        · subst h; simp
        · rw [if_neg h, if_neg (by omega)]
      · by_cases h : r = k + 1
        · rw [if_pos h, if_pos h.symm]
        · rw [if_neg h, if_neg (by omega)]
    simp only [hg, Finset.sum_sub_distrib]
    rw [Finset.sum_ite_eq' (Finset.range N) k (fun _ => if k + 1 < N then (1:ℝ) else 0),
      Finset.sum_ite_eq' (Finset.range N) (k + 1) (fun _ => (1:ℝ))]
    simp only [Finset.mem_range]
    by_cases h : k + 1 < N
    · have h' : k < N := by omega
      simp [h, h']
    · simp [h]
  · intro h
    unfold generator
    rw [if_neg]
    intro ⟨a, b⟩
    exact h ⟨by omega, by unfold dim at b; exact_mod_cast b⟩

example : ∃ g, generator 3 3 4 = .ok g ∧ (asM 3 3 g).trace = 0 :=
  (c41_generator_traceless 3 3 le_rfl 4).1 (by norm_num)

/-- **C41** kinds of generators, as documented in the class comment: the first `N-1` are `diag(...,1,-1,...)`, then there is
one symmetric and one antisymmetric generator for every pair of off-diagonal elements -/
theorem c41_generator_kinds (fuel N : Nat) (hf : N ≤ fuel) (G : Fin (dim N) → Matrix (Fin N) (Fin N) ℝ)
    (hG : IsGenerators fuel N G) :
    (∀ i : Fin (dim N), (i : Nat) < N - 1 → G i = Matrix.diagonal fun r : Fin N =>
      if (r : Nat) = i then 1 else if (r : Nat) = i + 1 then -1 else 0) ∧
    (∀ r c : Fin N, r < c → ∃ i : Fin (dim N), G i = Matrix.single r c 1 + Matrix.single c r 1) ∧
    (∀ r c : Fin N, r < c → ∃ i : Fin (dim N), G i = Matrix.single c r 1 - Matrix.single r c 1) ∧
    (∀ i : Fin (dim N), N - 1 ≤ (i : Nat) → ∃ r c : Fin N, r < c ∧
      (G i = Matrix.single r c 1 + Matrix.single c r 1 ∨ G i = Matrix.single c r 1 - Matrix.single r c 1)) := by
  have hsym : ∀ (i : Fin (dim N)) (r c : Fin N), r < c → (i : Nat) = N - 1 + pairIdx N r c →
      G i = Matrix.single r c 1 + Matrix.single c r 1 := by
    intro i r c hrc hi
    have hlt : (r : Nat) < c := hrc
    ext a b
    rw [gval_of hf hG, gval, Matrix.add_apply, Matrix.single_apply, Matrix.single_apply]
    have hp := pairIdx_lt N r c hlt c.2
    by_cases hab : a = b
    · subst hab
      have a1 : ¬ (r = a ∧ c = a) := by rintro ⟨h1, h2⟩; rw [h1, h2] at hrc; exact lt_irrefl _ hrc
      have a2 : ¬ (c = a ∧ r = a) := fun h => a1 ⟨h.2, h.1⟩
      have := a.2
      have a3 : ¬ ((i : Nat) = a ∧ (a : Nat) + 1 < N) := by omega
      have a4 : ¬ ((i : Nat) + 1 = a) := by omega
      simp [a1, a2, a3, a4]
    · have hab' : (a : Nat) ≠ b := fun h => hab (Fin.ext h)
      have hq := pairIdx_minmax_lt N a b a.2 b.2 hab'
      rw [if_neg hab', if_neg (show ¬ ((i : Nat) = N - 1 + off N N + pairIdx N (min (a:Nat) b) (max (a:Nat) b)) by omega), add_zero]
      by_cases hA : r = a ∧ c = b
      · have hB : ¬ (c = a ∧ r = b) := by rintro ⟨h1, h2⟩; apply hab; rw [← hA.1, h2]
        rw [if_pos hA, if_neg hB, if_pos, add_zero]
        rw [hi, ← hA.1, ← hA.2, min_eq_left hlt.le, max_eq_right hlt.le]
      · rw [if_neg hA, zero_add]
        by_cases hB : c = a ∧ r = b
        · rw [if_pos hB, if_pos]
          rw [hi, ← hB.1, ← hB.2, min_eq_right hlt.le, max_eq_left hlt.le]
        · rw [if_neg hB, if_neg]
          intro hh
          rcases pairIdx_minmax N r c a b hlt c.2 a.2 b.2 hab' (by omega) with ⟨h1, h2⟩ | ⟨h1, h2⟩
          · exact hA ⟨Fin.ext h1.symm, Fin.ext h2.symm⟩
          · exact hB ⟨Fin.ext h1.symm, Fin.ext h2.symm⟩
  have hasym : ∀ (i : Fin (dim N)) (r c : Fin N), r < c → (i : Nat) = N - 1 + off N N + pairIdx N r c →
      G i = Matrix.single c r 1 - Matrix.single r c 1 := by
    intro i r c hrc hi
    have hlt : (r : Nat) < c := hrc
    ext a b
    rw [gval_of hf hG, gval, Matrix.sub_apply, Matrix.single_apply, Matrix.single_apply]
    have hp := pairIdx_lt N r c hlt c.2
    by_cases hab : a = b
    · subst hab
      have a1 : ¬ (r = a ∧ c = a) := by rintro ⟨h1, h2⟩; rw [h1, h2] at hrc; exact lt_irrefl _ hrc
      have a2 : ¬ (c = a ∧ r = a) := fun h => a1 ⟨h.2, h.1⟩
      have := a.2
      have a3 : ¬ ((i : Nat) = a ∧ (a : Nat) + 1 < N) := by omega
      have a4 : ¬ ((i : Nat) + 1 = a) := by omega
      simp [a1, a2, a3, a4]
    · have hab' : (a : Nat) ≠ b := fun h => hab (Fin.ext h)
      have hq := pairIdx_minmax_lt N a b a.2 b.2 hab'
      rw [if_neg hab', if_neg (show ¬ ((i : Nat) = N - 1 + pairIdx N (min (a:Nat) b) (max (a:Nat) b)) by omega), zero_add]
      by_cases hA : r = a ∧ c = b
      · have hB : ¬ (c = a ∧ r = b) := by rintro ⟨h1, h2⟩; apply hab; rw [← hA.1, h2]
        rw [if_pos hA, if_neg hB, if_pos, if_pos, zero_sub]
        · rw [← hA.1, ← hA.2]; exact hlt
        · rw [hi, ← hA.1, ← hA.2, min_eq_left hlt.le, max_eq_right hlt.le]
      · rw [if_neg hA, sub_zero]
        by_cases hB : c = a ∧ r = b
        · rw [if_pos hB, if_pos, if_neg]
          · rw [← hB.1, ← hB.2]; omega
          · rw [hi, ← hB.1, ← hB.2, min_eq_right hlt.le, max_eq_left hlt.le]
        · rw [if_neg hB, if_neg]
          intro hh
          rcases pairIdx_minmax N r c a b hlt c.2 a.2 b.2 hab' (by omega) with ⟨h1, h2⟩ | ⟨h1, h2⟩
          · exact hA ⟨Fin.ext h1.symm, Fin.ext h2.symm⟩
          · exact hB ⟨Fin.ext h1.symm, Fin.ext h2.symm⟩
  refine ⟨?_, ?_, ?_, ?_⟩
  · intro i hi
    ext a b
    rw [gval_of hf hG, gval, Matrix.diagonal_apply]
    have := a.2
    by_cases hab : a = b
    · subst hab
      rw [if_pos rfl, if_pos rfl]
      by_cases h1 : (a : Nat) = i
      · rw [if_pos h1, if_pos (by omega), if_neg (by omega), sub_zero]
      · rw [if_neg h1, if_neg (by omega)]
        by_cases h2 : (a : Nat) = i + 1
        · rw [if_pos h2, if_pos h2.symm, zero_sub]
        · rw [if_neg h2, if_neg (by omega), sub_zero]
    · have hab' : (a : Nat) ≠ b := fun h => hab (Fin.ext h)
      rw [if_neg hab, if_neg hab', if_neg (by omega), if_neg (by omega), add_zero]
  · intro r c hrc
    have hp := pairIdx_lt N r c hrc c.2
    have hd := dim_eq N (by omega)
    exact ⟨⟨N - 1 + pairIdx N r c, by omega⟩, hsym _ r c hrc rfl⟩
  · intro r c hrc
    have hp := pairIdx_lt N r c hrc c.2
    have hd := dim_eq N (by omega)
    exact ⟨⟨N - 1 + off N N + pairIdx N r c, by omega⟩, hasym _ r c hrc rfl⟩
  · intro i hi
    obtain ⟨g, -, -, h | ⟨r, c, h1, h2, h⟩⟩ := generator_spec fuel N i hf i.2
    · omega
    · refine ⟨⟨r, by omega⟩, ⟨c, h2⟩, h1, ?_⟩
      rcases h with ⟨_, h, _⟩ | ⟨_, h, _⟩
      · exact Or.inl (hsym i ⟨r, by omega⟩ ⟨c, h2⟩ h1 h)
      · exact Or.inr (hasym i ⟨r, by omega⟩ ⟨c, h2⟩ h1 h)

theorem sum_gens {fuel N : Nat} (hf : N ≤ fuel) {G : Fin (dim N) → Matrix (Fin N) (Fin N) ℝ} (hG : IsGenerators fuel N G)
    (v : Nat → ℝ) (r c : Fin N) :
    (∑ i : Fin (dim N), v i • G i) r c =
      if (r : Nat) = c then (if (r : Nat) + 1 < N then v r else 0) - (if 0 < (r : Nat) then v (r - 1) else 0)
      else v (N - 1 + pairIdx N (min (r:Nat) c) (max (r:Nat) c)) +
        (if (r : Nat) < c then -1 else 1) * v (N - 1 + off N N + pairIdx N (min (r:Nat) c) (max (r:Nat) c)) := by
  have := r.2
  rw [← sum_gval N (by omega) v r c r.2 c.2, Matrix.sum_apply,
    ← Fin.sum_univ_eq_sum_range (fun i => gval N i r c * v i) (dim N)]
  refine Finset.sum_congr rfl fun i _ => ?_
  rw [Matrix.smul_apply, gval_of hf hG, smul_eq_mul, mul_comm]

theorem sum_trace_zero {fuel N : Nat} (hf : N ≤ fuel) {G : Fin (dim N) → Matrix (Fin N) (Fin N) ℝ} (hG : IsGenerators fuel N G)
    (v : Nat → ℝ) : (∑ i : Fin (dim N), v i • G i).trace = 0 := by
  rw [Matrix.trace_sum]
  refine Finset.sum_eq_zero fun i _ => ?_
  rw [Matrix.trace_smul]
  obtain ⟨g, h1, h2⟩ := hG i
  have hi := i.2
  obtain ⟨g', h3, h4⟩ := (c41_generator_traceless fuel N hf (i : Nat)).1 ⟨by omega, by unfold dim at hi; exact_mod_cast hi⟩
  rw [h1] at h3; cases h3
  rw [h2, h4, smul_zero]

/-- coordinates of a sum of generators -/
theorem coords_of_sum {fuel N : Nat} (hN : 0 < N) (hf : N ≤ fuel) {G : Fin (dim N) → Matrix (Fin N) (Fin N) ℝ}
    (hG : IsGenerators fuel N G) (v : Nat → ℝ) (T : Mat ℝ) (hT : asM N N T = ∑ i : Fin (dim N), v i • G i) :
    (∀ i, i < N - 1 → ∑ k ∈ Finset.range (i + 1), T k k = v i) ∧
    (∀ r c, r < c → c < N → (T r c + T c r) / 2 = v (N - 1 + pairIdx N r c) ∧
      (-T r c + T c r) / 2 = v (N - 1 + off N N + pairIdx N r c)) := by
  have ent : ∀ r c : Nat, r < N → c < N → T r c = if r = c then (if r + 1 < N then v r else 0) - (if 0 < r then v (r - 1) else 0)
      else v (N - 1 + pairIdx N (min r c) (max r c)) +
        (if r < c then -1 else 1) * v (N - 1 + off N N + pairIdx N (min r c) (max r c)) := by
    intro r c hr hc
    have := sum_gens hf hG v ⟨r, hr⟩ ⟨c, hc⟩
    rw [← hT] at this
    exact this
  constructor
  · intro i hi
    induction i with
    | zero =>
      rw [Finset.sum_range_one, ent 0 0 hN hN, if_pos rfl, if_pos (by omega), if_neg (lt_irrefl 0), sub_zero]
    | succ i ih =>
      rw [Finset.sum_range_succ, ih (by omega), ent (i + 1) (i + 1) (by omega) (by omega), if_pos rfl, if_pos (by omega),
        if_pos (Nat.succ_pos i), Nat.add_sub_cancel]
      ring
  · intro r c h1 h2
    rw [ent r c (by omega) h2, ent c r h2 (by omega), if_neg (show ¬ r = c by omega), if_neg (show ¬ c = r by omega), if_pos h1,
      if_neg (show ¬ c < r by omega),
      min_eq_left h1.le, max_eq_right h1.le, min_eq_right h1.le, max_eq_left h1.le]
    constructor <;> ring

theorem index_cases (N i : Nat) (hN : 0 < N) (hi : i < dim N) :
    i < N - 1 ∨ (∃ r c, r < c ∧ c < N ∧ i = N - 1 + pairIdx N r c) ∨
      ∃ r c, r < c ∧ c < N ∧ i = N - 1 + off N N + pairIdx N r c := by
  obtain ⟨g, -, -, h | ⟨r, c, h1, h2, h⟩⟩ := generator_spec N N i le_rfl hi
  · exact Or.inl h
  · rcases h with ⟨_, h, _⟩ | ⟨_, h, _⟩
    · exact Or.inr (Or.inl ⟨r, c, h1, h2, h⟩)
    · exact Or.inr (Or.inr ⟨r, c, h1, h2, h⟩)

/-- **C41** the generators are a basis of the Lie algebra, the traceless matrices: they are linearly independent and span
exactly the matrices of trace 0 -/
theorem c41_generators_basis (fuel N : Nat) (hN : 0 < N) (hf : N ≤ fuel) (G : Fin (dim N) → Matrix (Fin N) (Fin N) ℝ)
    (hG : IsGenerators fuel N G) :
    LinearIndependent ℝ G ∧ (Submodule.span ℝ (Set.range G) : Set (Matrix (Fin N) (Fin N) ℝ)) = {T | T.trace = 0} := by
  have ext0 : ∀ g : Fin (dim N) → ℝ, (∑ i : Fin (dim N), g i • G i) =
      ∑ i : Fin (dim N), (fun k : Nat => if h : k < dim N then g ⟨k, h⟩ else 0) i • G i := by
    intro g
    refine Finset.sum_congr rfl fun i _ => ?_
    simp only [i.2, dif_pos]
  constructor
  · rw [Fintype.linearIndependent_iff]
    intro g hg i
    rw [ext0 g] at hg
    have hz : asM N N (fun _ _ => (0:ℝ)) = ∑ i : Fin (dim N), (fun k : Nat => if h : k < dim N then g ⟨k, h⟩ else 0) i • G i := by
      rw [hg]; ext a b; simp
    obtain ⟨h1, h2⟩ := coords_of_sum hN hf hG (fun k : Nat => if h : k < dim N then g ⟨k, h⟩ else 0) _ hz
    have hgi : g i = (fun k : Nat => if h : k < dim N then g ⟨k, h⟩ else 0) i := by simp only [i.2, dif_pos]
    rw [hgi]
    rcases index_cases N i hN i.2 with h | ⟨r, c, hr, hc, h⟩ | ⟨r, c, hr, hc, h⟩
    · refine (h1 i h).symm.trans ?_; simp
    · rw [h]; refine (h2 r c hr hc).1.symm.trans ?_; simp
    · rw [h]; refine (h2 r c hr hc).2.symm.trans ?_; simp
  · ext T
    constructor
    · intro h
      rw [SetLike.mem_coe, Submodule.mem_span_range_iff_exists_fun] at h
      obtain ⟨g, rfl⟩ := h
      rw [ext0 g]; exact sum_trace_zero hf hG (fun k : Nat => if h : k < dim N then g ⟨k, h⟩ else 0)
    · intro hT
      rw [SetLike.mem_coe, Submodule.mem_span_range_iff_exists_fun]
      let T' : Mat ℝ := fun r c => if h : r < N ∧ c < N then T ⟨r, h.1⟩ ⟨c, h.2⟩ else 0
      have hT' : ∀ r c : Fin N, T' r c = T r c := fun r c => by simp only [T', r.2, c.2, and_self, dif_pos]
      let v : Vec ℝ := (lnOff N T' (fun i => ∑ k ∈ Finset.range (i + 1), T' k k)).1
      obtain ⟨hv1, hv2⟩ := lnOff_spec N hN T' (fun i => ∑ k ∈ Finset.range (i + 1), T' k k)
      have htr : ∑ k ∈ Finset.range N, T' k k = 0 := by
        rw [← Fin.sum_univ_eq_sum_range (fun k => T' k k) N, ← hT]
        exact Finset.sum_congr rfl fun r _ => hT' r r
      refine ⟨fun i => v i, ?_⟩
      ext r c
      rw [sum_gens hf hG v r c]
      have hr := r.2
      have hc := c.2
      by_cases hrc : (r : Nat) = c
      · rw [if_pos hrc]
        have hd : ∀ i, i < N - 1 → v i = ∑ k ∈ Finset.range (i + 1), T' k k := hv1
        have : (c : Fin N) = r := (Fin.ext hrc).symm
        subst this
        have hA : (if (c : Nat) + 1 < N then v c else 0) = ∑ k ∈ Finset.range ((c:Nat) + 1), T' k k := by
          by_cases h : (c : Nat) + 1 < N
          · rw [if_pos h, hd c (by omega)]
          · rw [if_neg h]
            have : (c : Nat) + 1 = N := by omega
            rw [this, htr]
        have hB : (if 0 < (c : Nat) then v (c - 1) else 0) = ∑ k ∈ Finset.range (c:Nat), T' k k := by
          by_cases h : 0 < (c : Nat)
          · rw [if_pos h, hd _ (by omega), Nat.sub_add_cancel h]
          · rw [if_neg h]
            have : (c : Nat) = 0 := by omega
            rw [this]; simp
        rw [hA, hB, Finset.sum_range_succ, ← hT' c c]; ring
      · rw [if_neg hrc]
        rcases Nat.lt_or_gt_of_ne hrc with h | h
        · obtain ⟨a, b⟩ := hv2 r c h hc
          rw [if_pos h, min_eq_left h.le, max_eq_right h.le]
          change (lnOff N T' _).1 _ + _ * (lnOff N T' _).1 _ = _
          rw [a, b, ← hT' r c]; ring
        · obtain ⟨a, b⟩ := hv2 c r h hr
          rw [if_neg (by omega), min_eq_right h.le, max_eq_left h.le]
          change (lnOff N T' _).1 _ + _ * (lnOff N T' _).1 _ = _
          rw [a, b, ← hT' r c]; ring

theorem exists_generators (fuel N : Nat) (hf : N ≤ fuel) : ∃ G, IsGenerators fuel N G := by
  have h : ∀ i : Fin (dim N), ∃ g, generator fuel N (i : Nat) = .ok g := fun i =>
    let ⟨g, hg, _⟩ := generator_spec fuel N i hf i.2; ⟨g, hg⟩
  choose g hg using h
  exact ⟨fun i => asM N N (g i), fun i => ⟨g i, hg i, rfl⟩⟩

example : ∃ G, IsGenerators 4 4 G ∧ LinearIndependent ℝ G := by
  obtain ⟨G, hG⟩ := exists_generators 4 4 le_rfl
  exact ⟨G, hG, (c41_generators_basis 4 4 (by norm_num) le_rfl G hG).1⟩

/-- **C41** the argument `exp` passes to the matrix exponential is the combination of the generators with the given
coefficients, a traceless matrix -/
theorem c41_exp_tangent (fuel N : Nat) (hf : N ≤ fuel) (G : Fin (dim N) → Matrix (Fin N) (Fin N) ℝ)
    (hG : IsGenerators fuel N G) (expM : Mat ℝ → Mat ℝ) (v : Vec ℝ) :
    ∃ t, SL.exp fuel N expM v = .ok (expM t) ∧ tangent fuel N v = .ok t ∧
      asM N N t = ∑ i : Fin (dim N), v i • G i ∧ (asM N N t).trace = 0 := by
  obtain ⟨t, h1, h2⟩ := tangent_spec fuel N hf v
  have h3 : asM N N t = ∑ i : Fin (dim N), v i • G i := by
    ext r c
    rw [asM_apply, h2 r c r.2 c.2, Matrix.sum_apply, ← Fin.sum_univ_eq_sum_range (fun i => gval N i r c * v i) (dim N)]
    refine Finset.sum_congr rfl fun i _ => ?_
    rw [Matrix.smul_apply, gval_of hf hG, smul_eq_mul, mul_comm]
  refine ⟨t, by unfold SL.exp; rw [h1]; rfl, h1, h3, ?_⟩
  rw [h3]; exact sum_trace_zero hf hG v

/-- **C41** `exp(v)` has determinant 1, when `TooN::exp` computes the matrix exponential of the tangent matrix -/
theorem c41_exp_det (fuel N : Nat) (hf : N ≤ fuel) (expM : Mat ℝ → Mat ℝ) (v : Vec ℝ)
    (hexp : ∀ t, tangent fuel N v = .ok t → asM N N (expM t) = NormedSpace.exp (asM N N t)) :
    ∃ m, SL.exp fuel N expM v = .ok m ∧ (asM N N m).det = 1 := by
  obtain ⟨G, hG⟩ := exists_generators fuel N hf
  obtain ⟨t, h1, h2, -, h4⟩ := c41_exp_tangent fuel N hf G hG expM v
  exact ⟨_, h1, by rw [hexp t h2]; exact det_exp_traceless _ h4⟩

/-- an exponential function for stored matrices -/
noncomputable def exE (N : Nat) : Mat ℝ → Mat ℝ := fun t r c =>
  if h : r < N ∧ c < N then NormedSpace.exp (asM N N t) ⟨r, h.1⟩ ⟨c, h.2⟩ else 0

theorem asM_exE (N : Nat) (t : Mat ℝ) : asM N N (exE N t) = NormedSpace.exp (asM N N t) := by
  ext r c; simp only [asM_apply, exE, r.2, c.2, and_self, dif_pos, Fin.eta]

example : ∃ m, SL.exp 3 3 (exE 3) (fun i => i + 1) = .ok m ∧ (asM 3 3 m).det = 1 :=
  c41_exp_det 3 3 le_rfl _ _ fun _ _ => asM_exE 3 _

/-- **C41** what `ln` extracts from a matrix logarithm `l = ∑ v_i G_i`: all coefficients of the symmetric and antisymmetric
generators, and the diagonal ones with index below 2; a diagonal coefficient with index `i ≥ 2` comes out as
`v_i - v_{i-2}`. -/
theorem c41_ln_coordinates (fuel N : Nat) (hN : 0 < N) (hf : N ≤ fuel) (G : Fin (dim N) → Matrix (Fin N) (Fin N) ℝ)
    (hG : IsGenerators fuel N G) (l : Mat ℝ) (v junk : Vec ℝ) (hl : asM N N l = ∑ i : Fin (dim N), v i • G i) :
    ∀ i, i < dim N → lnCoords N l junk i = if 2 ≤ i ∧ i < N - 1 then v i - v (i - 2) else v i := by
  intro i hi
  obtain ⟨c1, c2⟩ := coords_of_sum hN hf hG v l hl
  obtain ⟨o1, o2⟩ := lnOff_spec N hN l (lnDiag N l junk).1
  unfold lnCoords
  rcases index_cases N i hN hi with h | ⟨r, c, hr, hc, h⟩ | ⟨r, c, hr, hc, h⟩
  · rw [o1 i h, lnDiag_spec N l junk i h]
    rcases Nat.lt_or_ge i 2 with h2 | h2
    · rw [if_neg (show ¬ (2 ≤ i ∧ i < N - 1) by omega), ← c1 i h]
      interval_cases i
      · simp
      · simp [Finset.sum_range_succ]; ring
    · rw [if_pos (show 2 ≤ i ∧ i < N - 1 from ⟨h2, h⟩), if_pos (show 0 < i by omega), ← c1 i h, ← c1 (i - 2) (by omega)]
      obtain ⟨k, rfl⟩ : ∃ k, i = k + 2 := ⟨i - 2, by omega⟩
      rw [Nat.add_sub_cancel, Finset.sum_range_succ, Finset.sum_range_succ, Nat.add_sub_assoc (by norm_num)]
      ring_nf
  · rw [if_neg (by omega), h, (o2 r c hr hc).1, (c2 r c hr hc).1]
  · rw [if_neg (by omega), h, (o2 r c hr hc).2, (c2 r c hr hc).2]

/-- **C41** for `N ≤ 3`, `ln(exp(v)) = v` whenever `TooN::log` inverts `TooN::exp` at the tangent matrix of `v` -/
theorem c41_ln_exp (fuel N : Nat) (hN : 0 < N) (hN3 : N ≤ 3) (hf : N ≤ fuel) (expM logM : Mat ℝ → Mat ℝ) (v junk : Vec ℝ)
    (hlog : ∀ t, tangent fuel N v = .ok t → asM N N (logM (expM t)) = asM N N t) :
    ∃ m, SL.exp fuel N expM v = .ok m ∧ ∀ i, i < N * N - 1 → ln N logM m junk i = v i := by
  obtain ⟨G, hG⟩ := exists_generators fuel N hf
  obtain ⟨t, h1, h2, h3, -⟩ := c41_exp_tangent fuel N hf G hG expM v
  refine ⟨_, h1, fun i hi => ?_⟩
  have := c41_ln_coordinates fuel N hN hf G hG (logM (expM t)) v junk (by rw [hlog t h2, h3]) i hi
  unfold ln
  rw [this, if_neg (by omega)]

example : ∃ m, SL.exp 3 3 (exE 3) (fun i => i + 1) = .ok m ∧
    ∀ i, i < 3 * 3 - 1 → ln 3 (fun _ => (match tangent 3 3 (fun i => i + 1) with | .ok t => t | _ => 0)) m (fun _ => 77) i = i + 1 :=
  c41_ln_exp 3 3 (by norm_num) le_rfl le_rfl _ _ _ _ fun t ht => by rw [ht]

/-- **C41** for every `N ≥ 4` this fails, whatever exact exponential and logarithm are used: with `v = (1,0,0,…)` the third
coordinate of `ln(exp(v))` is -1 instead of 0 -/
theorem c41_ln_exp_wrong (fuel N : Nat) (hN : 4 ≤ N) (hf : N ≤ fuel) (expM logM : Mat ℝ → Mat ℝ) (junk : Vec ℝ)
    (hlog : ∀ t, tangent fuel N (fun i => if i = 0 then 1 else 0) = .ok t → asM N N (logM (expM t)) = asM N N t) :
    ∃ m, SL.exp fuel N expM (fun i => if i = 0 then 1 else 0) = .ok m ∧ ln N logM m junk 2 = -1 := by
  obtain ⟨G, hG⟩ := exists_generators fuel N hf
  obtain ⟨t, h1, h2, h3, -⟩ := c41_exp_tangent fuel N hf G hG expM (fun i => if i = 0 then 1 else 0)
  refine ⟨_, h1, ?_⟩
  have hd := dim_eq N (by omega)
  have := c41_ln_coordinates fuel N (by omega) hf G hG (logM (expM t)) (fun i => if i = 0 then 1 else 0) junk (by rw [hlog t h2, h3]) 2 (by omega)
  unfold ln
  rw [this, if_pos ⟨le_rfl, by omega⟩]; simp

theorem mul_eq (N : Nat) (a b : Mat ℝ) : asM N N (mul N a b) = asM N N a * asM N N b := by
  ext r c
  have : ∀ m, forN m (fun k s => s + a r k * b k c) (0:ℝ) = ∑ k ∈ Finset.range m, a r k * b k c := by
    intro m
    induction m with
    | zero => simp
    | succ m ih => rw [forN_succ, ih, Finset.sum_range_succ]
  rw [asM_apply, mul, this, Matrix.mul_apply, ← Fin.sum_univ_eq_sum_range (fun k => a r k * b k c) N]
  rfl

/-- **C41** products and inverses of determinant 1 matrices have determinant 1, products are matrix products, and
`inverse()` is the two-sided inverse -/
theorem c41_group (N : Nat) (a b x : Mat ℝ) (ha : (asM N N a).det = 1) (hb : (asM N N b).det = 1) :
    (asM N N (mul N a b)).det = 1 ∧ asM N N (mul N a b) = asM N N a * asM N N b ∧
    ∃ i, inverse N a x = some i ∧ asM N N (mul N a i) = 1 ∧ asM N N (mul N i a) = 1 ∧ (asM N N i).det = 1 := by
  refine ⟨by rw [mul_eq, det_mul, ha, hb, one_mul], mul_eq N a b, ?_⟩
  obtain ⟨X, h1, h2⟩ := Elim.c17_gaussian_elimination_solves N N a (fun i j => if i = j then 1 else 0) x (by rw [ha]; exact one_ne_zero)
  have h3 : asM N N (fun i j => if i = j then (1:ℝ) else 0) = 1 := by
    ext i j; simp [Matrix.one_apply, Fin.ext_iff]
  rw [h3] at h2
  refine ⟨X, h1, by rw [mul_eq, h2], by rw [mul_eq]; exact mul_eq_one_comm.1 h2, ?_⟩
  have := congrArg det h2
  rw [det_mul, ha, one_mul, det_one] at this
  exact this

example : (asM 2 2 (fun i j => if i ≤ j then (1:ℝ) else 0)).det = 1 := by
  rw [det_fin_two]; simp

/-- **C41** coercing a matrix with positive determinant gives determinant 1 and keeps the direction (a positive multiple of
the argument); a matrix of determinant 1 is unchanged -/
theorem c41_coerce (N : Nat) (hN : 0 < N) (m : Mat ℝ) (h : 0 < (asM N N m).det) :
    ∃ (m' : Mat ℝ) (s : ℝ), coerce N m = .ok (some m') ∧ 0 < s ∧ asM N N m' = s • asM N N m ∧ (asM N N m').det = 1 ∧
      ((asM N N m).det = 1 → asM N N m' = asM N N m) := by
  unfold coerce
  rw [Elim.c18_determinant]
  simp only
  rw [if_pos (show |(asM N N m).det| > 0 from abs_pos.2 h.ne')]
  unfold rootN
  rw [if_pos h]
  simp only
  have hp : 0 < (asM N N m).det ^ (1 / (N : ℝ)) := Real.rpow_pos_of_pos h _
  have hm : asM N N (fun r c => m r c / (asM N N m).det ^ (1 / (N : ℝ))) =
      ((asM N N m).det ^ (1 / (N : ℝ)))⁻¹ • asM N N m := by
    ext r c; simp [div_eq_inv_mul]
  refine ⟨_, ((asM N N m).det ^ (1 / (N : ℝ)))⁻¹, rfl, inv_pos.2 hp, hm, ?_, ?_⟩
  · rw [hm, det_smul, Fintype.card_fin, inv_pow, ← Real.rpow_natCast, ← Real.rpow_mul h.le,
      one_div_mul_cancel (by exact_mod_cast hN.ne'), Real.rpow_one, inv_mul_cancel₀ h.ne']
  · intro h1
    rw [hm, h1, Real.one_rpow, inv_one, one_smul]

example : 0 < (asM 2 2 (fun i j => if i = j then (2:ℝ) else 0)).det := by
  rw [det_fin_two]; simp

/-- **C41** `coerce` of a singular matrix fails its assertion; of a matrix with negative determinant (`N ≥ 2`) it gives a
matrix of NaNs -/
theorem c41_coerce_other (N : Nat) (m : Mat ℝ) :
    ((asM N N m).det = 0 → coerce N m = .abort) ∧ (2 ≤ N → (asM N N m).det < 0 → coerce N m = .ok none) := by
  unfold coerce
  rw [Elim.c18_determinant]
  constructor
  · intro h; simp [h]
  · intro hN h
    simp only
    rw [if_pos (show |(asM N N m).det| > 0 from abs_pos.2 h.ne)]
    unfold rootN
    rw [if_neg (not_lt.2 h.le), if_neg (by omega)]

end TooN.SL
