import Verif.Proof.FusedElim
import Verif.Props.FloatElim
/-!
# C82: `gaussian_elimination` with contracted multiply-add

The bounds of C63 hold for every contraction policy `ϰ` (`Model/Fused.lean`).  The functions are those of `Model/Elim.lean` run on
`Fu ρ ϰ`.
-/
set_option linter.unusedSectionVars false
namespace TooN.Fused
open TooN.Elim
open Finset
variable {ρ : Rounding} {ϰ : Contract ρ}

section upd
/-! ### the analysis for any evaluation of the row update with unit roundoff at most `u` -/
variable {u : ℝ} (h1' : u < 1) (hru : ρ.u ≤ u) {upd : Fu ρ ϰ → Fu ρ ϰ → Fu ρ ϰ → Fu ρ ϰ} (hupd : UpdOk u upd)
include h1' hru hupd

theorem gu_backward (n nc : ℕ) (hu : ((3 * n + 1 : ℕ) : ℝ) * u < 1) (A B x X : Mat (Fu ρ ϰ))
    (h : gaussElimU upd n nc A B x = some X) :
    ∃ (σ : ℕ → ℕ) (L U : Mat ℝ),
      (∀ r, r < n → σ r < n) ∧ (∀ r s, r < n → s < n → σ r = σ s → r = s) ∧
      (∀ r k, r < k → L r k = 0) ∧ (∀ r k, k < n → r < n → |L r k| ≤ |L k k|) ∧ (∀ k, k < n → L k k ≠ 0) ∧
      (∀ k c, c < k → U k c = 0) ∧ (∀ k, U k k = 1) ∧
      (∀ r c, r < n → c < n → |(A (σ r) c).val - ∑ k ∈ range n, L r k * U k c| ≤
        gam u (n+1) * ∑ k ∈ range n, |L r k| * |U k c|) ∧
      (∀ M, (∀ r c, r < n → c < n → |(A r c).val| ≤ M) → ∀ k r c, k < n → r < n → c < n →
        |L r k| * |U k c| ≤ (1+u)^2 * (2*(1+u)^4)^k * M) ∧
      ∀ q, q < nc → ∃ E : Mat ℝ,
        (∀ r c, r < n → c < n → |E (σ r) c| ≤ gam u (3*n+1) * ∑ k ∈ range n, |L r k| * |U k c|) ∧
        ∀ r, r < n → ∑ c ∈ range n, ((A r c).val + E r c) * (X c q).val = (B r q).val := by
  have h0 := (le_trans ρ.u_nonneg hru)
  have h1 := h1'
  unfold gaussElimU at h
  rcases ge_loop h1' hru hupd n nc A B n le_rfl with ⟨st, e, σ, L, hI, -, hG⟩ | ⟨e, -⟩
  swap
  · rw [e] at h; exact absurd h (by simp)
  rw [e, Option.bind_some] at h
  have hX : X = geBack n nc st.1 st.2 x := (Option.some.inj h).symm
  set S := sval n st.1 st.2 with hS
  obtain ⟨τ, hτ, hτ'⟩ := perm_inv n σ hI.rng hI.inj
  have hF : ∀ r c, r < n → c < n + nc → ∃ G : ℕ → ℝ, (∀ k, k < n → Fac u (n+1) (G k)) ∧
      sval n A B (σ r) c = ∑ k ∈ range n, L r k * uf S k c * G k := by
    intro r c hr hc
    obtain ⟨g, G, -, hG, e⟩ := hI.fact r c hr hc
    exact ⟨G, hG, by rw [e, if_neg (by omega), add_zero]⟩
  have hfac : ∀ r c, ∃ G : ℕ → ℝ, r < n → c < n + nc → (∀ k, k < n → Fac u (n+1) (G k)) ∧
      sval n A B (σ r) c = ∑ k ∈ range n, L r k * uf S k c * G k := by
    intro r c
    by_cases hrc : r < n ∧ c < n + nc
    · obtain ⟨G, hG⟩ := hF r c hrc.1 hrc.2
      exact ⟨G, fun _ _ => hG⟩
    · exact ⟨fun _ => 1, fun a b => absurd ⟨a, b⟩ hrc⟩
  choose G hGG using hfac
  have hA : ∀ r c, c < n → sval n A B r c = (A r c).val := fun r c hc => by unfold sval; rw [if_pos hc]
  have hn1 : ((n+1 : ℕ) : ℝ) * u < 1 :=
    lt_of_le_of_lt (mul_le_mul_of_nonneg_right (by exact_mod_cast (by omega : n + 1 ≤ 3*n+1)) h0) hu
  refine ⟨σ, L, uf S, hI.rng, hI.inj, hI.tri, fun r k hk hr => hI.big k r hk hr, hI.nz, ?_, ?_, ?_, ?_, ?_⟩
  · intro k c hkc; unfold uf; rw [if_neg (by omega), if_neg (by omega)]
  · intro k; unfold uf; rw [if_neg (by omega), if_pos rfl]
  · intro r c hr hc
    obtain ⟨hG1, e1⟩ := hGG r c hr (by omega)
    rw [← hA _ c hc, e1]
    refine le_trans (fac_sum_err h0 h1 hn1 _ (fun k => L r k * uf S k c) _ (fun k hk => hG1 k (mem_range.1 hk))) ?_
    exact le_of_eq (by congr 1; exact sum_congr rfl fun k _ => abs_mul _ _)
  · intro M hM k r c hk hr hc; exact (hG M hM).prod k r c hk hr hc
  · intro q hq
    obtain ⟨F, hF1, hF2⟩ := fge_back n nc st.1 st.2 x q hq
    rw [← hX, ← hS] at hF2
    -- the perturbation, indexed by pivoted rows
    let E' : Mat ℝ := fun r c => ∑ k ∈ range n, L r k * uf S k c * (G r (n+q) k * F k c - G r c k)
    refine ⟨fun r c => E' (τ r) c, ?_, ?_⟩
    · intro r c hr hc
      simp only [hτ' r hr, E']
      rw [mul_sum]
      refine le_trans (abs_sum_le_sum_abs _ _) (sum_le_sum fun k hk => ?_)
      have hk := mem_range.1 hk
      rw [abs_mul, abs_mul, mul_comm]
      refine mul_le_mul_of_nonneg_right ?_ (by positivity)
      have a1 := ((hGG r (n+q) hr (by omega)).1 k hk).mul h0 h1 ((hF1 k c hk hc).weaken h1' hru ((hF1 k c hk hc).pos ρ.u_nonneg ρ.u_lt_one).le)
      have a2 := (hGG r c hr (by omega)).1 k hk
      have hN : n + 1 + (n - 1) = 2 * n := by omega
      rw [hN] at a1
      have hn2 : ((2*n : ℕ) : ℝ) * u < 1 :=
        lt_of_le_of_lt (mul_le_mul_of_nonneg_right (by exact_mod_cast (by omega : 2*n ≤ 3*n+1)) h0) hu
      have b1 := a1.gam h0 h1 hn2
      have b2 := a2.gam h0 h1 hn1
      have b3 : gam u (2*n) + gam u (n+1) ≤ gam u (2*n+(n+1)) :=
        gam_add h0 h1 (by rw [show 2*n+(n+1) = 3*n+1 by omega]; exact hu)
      rw [show 2*n+(n+1) = 3*n+1 by omega] at b3
      calc |G r (n+q) k * F k c - G r c k| = |(G r (n+q) k * F k c - 1) - (G r c k - 1)| := by congr 1; ring
        _ ≤ |G r (n+q) k * F k c - 1| + |G r c k - 1| := abs_sub _ _
        _ ≤ gam u (3*n+1) := by linarith
    · intro s hs
      obtain ⟨hr, hr2⟩ := hτ s hs
      set r := τ s with hrd
      have eb : (B s q).val = sval n A B (σ r) (n+q) := by
        unfold sval; rw [hr2, if_neg (by omega), Nat.add_sub_cancel_left]
      have ea : ∀ c, c < n → (A s c).val = ∑ k ∈ range n, L r k * uf S k c * G r c k := by
        intro c hc; rw [← (hGG r c hr (by omega)).2, hr2, hA s c hc]
      have ey : ∀ k, k < n → uf S k (n+q) = (st.2 k q).val := by
        intro k hk; unfold uf; rw [if_pos (by omega), hS]; unfold sval
        rw [if_neg (by omega), Nat.add_sub_cancel_left]
      rw [eb, (hGG r (n+q) hr (by omega)).2]
      have e1 : ∀ c ∈ range n, ((A s c).val + E' r c) * (X c q).val =
          ∑ k ∈ range n, L r k * G r (n+q) k * (uf S k c * (X c q).val * F k c) := by
        intro c hc
        rw [ea c (mem_range.1 hc)]
        simp only [E']
        rw [← sum_add_distrib, sum_mul]
        exact sum_congr rfl fun k _ => by ring
      rw [sum_congr rfl e1, sum_comm]
      refine sum_congr rfl fun k hk => ?_
      have hk := mem_range.1 hk
      rw [← mul_sum, ← hF2 k hk, ey k hk]; ring

theorem gu_stable (n nc : ℕ) (hu : ((3 * n + 1 : ℕ) : ℝ) * u < 1) (A B x X : Mat (Fu ρ ϰ))
    (h : gaussElimU upd n nc A B x = some X) (M : ℝ) (hM : ∀ r c, r < n → c < n → |(A r c).val| ≤ M) (q : ℕ) (hq : q < nc) :
    ∃ E : Mat ℝ, (∀ r c, r < n → c < n → |E r c| ≤ gam u (3*n+1) * (2^n * (1+u)^(4*n+2) * M)) ∧
      ∀ r, r < n → ∑ c ∈ range n, ((A r c).val + E r c) * (X c q).val = (B r q).val := by
  obtain ⟨σ, L, U, p1, p2, -, -, -, -, -, -, hg, hE⟩ := gu_backward h1' hru hupd n nc hu A B x X h
  obtain ⟨E, e1, e2⟩ := hE q hq
  obtain ⟨τ, hτ, hτ'⟩ := perm_inv n σ p1 p2
  refine ⟨E, fun r c hr hc => ?_, e2⟩
  obtain ⟨t1, t2⟩ := hτ r hr
  have := e1 (τ r) c t1 hc
  rw [t2] at this
  have hM0 : 0 ≤ M := le_trans (abs_nonneg _) (hM r c hr hc)
  refine le_trans this (mul_le_mul_of_nonneg_left ?_ (gam_nonneg (le_trans ρ.u_nonneg hru) h1' hu))
  refine le_trans (sum_le_sum fun k hk => hg M hM k (τ r) c (mem_range.1 hk) t1 hc) ?_
  exact geom_bound (le_trans ρ.u_nonneg hru) hM0 n n le_rfl

theorem gu_fails_only_near_singular (n nc : ℕ) (hu : ((n + 1 : ℕ) : ℝ) * u < 1) (A B x : Mat (Fu ρ ϰ))
    (h : gaussElimU upd n nc A B x = none) (M : ℝ) (hM : ∀ r c, r < n → c < n → |(A r c).val| ≤ M) :
    ∃ (E : Mat ℝ) (z : Vec ℝ), (∀ r c, r < n → c < n → |E r c| ≤ gam u (n+1) * (2^n * (1+u)^(4*n+2) * M)) ∧
      (∃ c, c < n ∧ z c ≠ 0) ∧ ∀ r, r < n → ∑ c ∈ range n, ((A r c).val + E r c) * z c = 0 := by
  have h0 := (le_trans ρ.u_nonneg hru)
  have h1 := h1'
  unfold gaussElimU at h
  rcases ge_loop h1' hru hupd n nc A B n le_rfl with ⟨st, e, -⟩ | ⟨-, i, st, hi, ⟨σ, L, hI, -, hG⟩, hz⟩
  · rw [e] at h; exact absurd h (by simp)
  set S := sval n st.1 st.2 with hS
  obtain ⟨τ, hτ, hτ'⟩ := perm_inv n σ hI.rng hI.inj
  have hA : ∀ r c, c < n → sval n A B r c = (A r c).val := fun r c hc => by unfold sval; rw [if_pos hc]
  have hM0 : 0 ≤ M := le_trans (abs_nonneg _) (hM i i hi hi)
  have hg := hG M hM
  -- the nearby matrix
  let N : Mat ℝ := fun r c => ∑ k ∈ range i, L r k * uf S k c + (if i ≤ r ∧ i ≤ c then S r c else 0)
  obtain ⟨z, z1, z2, z3⟩ := exists_kernel i S
  refine ⟨fun r c => N (τ r) c - (A r c).val, z, ?_, ⟨i, hi, by rw [z1]; exact one_ne_zero⟩, ?_⟩
  · intro s c hs hc
    beta_reduce
    obtain ⟨hr, hr2⟩ := hτ s hs
    generalize τ s = r at *
    obtain ⟨g, G, hg1, hG1, e⟩ := hI.fact r c hr (by omega)
    rw [hr2, hA s c hc] at e
    rw [e]
    simp only [N]
    have hi1 : ((i+1 : ℕ) : ℝ) * u < 1 :=
      lt_of_le_of_lt (mul_le_mul_of_nonneg_right (by exact_mod_cast (by omega : i + 1 ≤ n+1)) h0) hu
    have e1 := fac_sum_err h0 h1 hi1 (range i) (fun k => L r k * uf S k c) G (fun k hk => hG1 k (mem_range.1 hk))
    have e2 : |(if i ≤ r ∧ i ≤ c then S r c * g else 0) - (if i ≤ r ∧ i ≤ c then S r c else 0)| ≤
        gam u (i+1) * ((1+u)^2 * (2*(1+u)^4)^i * M) := by
      have hgn := gam_nonneg h0 h1 hi1
      split_ifs with hc2
      · have b1 := (hg1.mono h0 h1 (Nat.le_succ i)).gam h0 h1 hi1
        rw [show S r c * g - S r c = (g - 1) * S r c by ring, abs_mul]
        refine mul_le_mul b1 ?_ (abs_nonneg _) hgn
        refine le_trans (hg.act r c hc2.1 hr hc2.2 hc) ?_
        rw [mul_assoc]
        exact le_mul_of_one_le_left (by positivity) (one_le_pow₀ (by linarith))
      · rw [sub_zero, abs_zero]; positivity
    have e3 : ∑ k ∈ range i, |L r k * uf S k c| ≤ ∑ k ∈ range i, (1+u)^2 * (2*(1+u)^4)^k * M :=
      sum_le_sum fun k hk => by rw [abs_mul]; exact hg.prod k r c (mem_range.1 hk) hr hc
    have e4 := geom_bound h0 hM0 n (i+1) hi
    rw [sum_range_succ] at e4
    have g1 := gam_nonneg h0 h1 hi1
    have g2 := gam_mono h0 h1 (Nat.succ_le_succ hi.le) hu
    calc |(∑ k ∈ range i, L r k * uf S k c + if i ≤ r ∧ i ≤ c then S r c else 0) -
          (∑ k ∈ range i, L r k * uf S k c * G k + if i ≤ r ∧ i ≤ c then S r c * g else 0)|
        = |(∑ k ∈ range i, L r k * uf S k c * G k - ∑ k ∈ range i, L r k * uf S k c) +
          ((if i ≤ r ∧ i ≤ c then S r c * g else 0) - (if i ≤ r ∧ i ≤ c then S r c else 0))| := by
          rw [abs_sub_comm]; congr 1; ring
      _ ≤ gam u (i+1) * ∑ k ∈ range i, |L r k * uf S k c| + gam u (i+1) * ((1+u)^2 * (2*(1+u)^4)^i * M) :=
          le_trans (abs_add_le _ _) (add_le_add e1 e2)
      _ = gam u (i+1) * (∑ k ∈ range i, |L r k * uf S k c| + (1+u)^2 * (2*(1+u)^4)^i * M) := by ring
      _ ≤ gam u (n+1) * (2^n * (1+u)^(4*n+2) * M) :=
          mul_le_mul g2 (by linarith) (by positivity) (le_trans g1 g2)
  · intro s hs
    beta_reduce
    obtain ⟨hr, -⟩ := hτ s hs
    generalize τ s = r at *
    have e1 : ∀ c ∈ range n, ((A s c).val + (N r c - (A s c).val)) * z c = N r c * z c := fun c _ => by ring
    rw [sum_congr rfl e1]
    have e2 : ∀ c ∈ range n, N r c * z c = ∑ k ∈ range i, L r k * (uf S k c * z c) +
        (if i ≤ r ∧ i ≤ c then S r c else 0) * z c := by
      intro c _
      simp only [N]
      rw [add_mul, sum_mul]
      congr 1
      exact sum_congr rfl fun k _ => by ring
    rw [sum_congr rfl e2, sum_add_distrib, sum_comm]
    have e3 : ∀ k ∈ range i, ∑ c ∈ range n, L r k * (uf S k c * z c) = 0 := by
      intro k hk
      have hk := mem_range.1 hk
      rw [← mul_sum]
      have : ∑ c ∈ range n, uf S k c * z c = z k + ∑ c ∈ Ico (k+1) (i+1), S k c * z c := by
        rw [Finset.range_eq_Ico, ← sum_Ico_consecutive _ (Nat.zero_le k) (by omega : k ≤ n),
          ← sum_Ico_consecutive _ (by omega : k ≤ i+1) (by omega : i+1 ≤ n), sum_eq_sum_Ico_succ_bot (by omega : k < i+1)]
        have a1 : ∑ c ∈ Ico 0 k, uf S k c * z c = 0 := sum_eq_zero fun c hc => by
          have := mem_Ico.1 hc
          unfold uf; rw [if_neg (by omega), if_neg (by omega), zero_mul]
        have a2 : ∑ c ∈ Ico (i+1) n, uf S k c * z c = 0 := sum_eq_zero fun c hc => by
          have := mem_Ico.1 hc
          rw [z2 c (by omega), mul_zero]
        have a3 : ∑ c ∈ Ico (k+1) (i+1), uf S k c * z c = ∑ c ∈ Ico (k+1) (i+1), S k c * z c :=
          sum_congr rfl fun c hc => by
            have := mem_Ico.1 hc
            unfold uf; rw [if_pos (by omega)]
        have a4 : uf S k k = 1 := by unfold uf; rw [if_neg (by omega), if_pos rfl]
        rw [a1, a2, a3, a4]; ring
      rw [this, z3 k hk, mul_zero]
    rw [sum_congr rfl e3, sum_const_zero, zero_add]
    refine sum_eq_zero fun c hc => ?_
    have hc := mem_range.1 hc
    split_ifs with hh
    · by_cases e : c = i
      · subst e
        have : S r c = 0 := by rw [hS]; unfold sval; rw [if_pos hi]; exact hz r hh.1 hr
        rw [this, zero_mul]
      · rw [z2 c (by omega), mul_zero]
    · rw [zero_mul]

theorem gu_dominant (n nc : ℕ) (hu : ((3 * n + 1 : ℕ) : ℝ) * u < 1) (A B x : Mat (Fu ρ ϰ))
    (M : ℝ) (hM : ∀ r c, r < n → c < n → |(A r c).val| ≤ M)
    (hd : ∀ r, r < n → ∑ c ∈ (range n).erase r, |(A r c).val| + n * (gam u (n+1) * (2^n * (1+u)^(4*n+2) * M)) <
      |(A r r).val|) :
    ∃ X, gaussElimU upd n nc A B x = some X ∧ ∀ q, q < nc → ∃ E : Mat ℝ,
      (∀ r c, r < n → c < n → |E r c| ≤ gam u (3*n+1) * (2^n * (1+u)^(4*n+2) * M)) ∧
      ∀ r, r < n → ∑ c ∈ range n, ((A r c).val + E r c) * (X c q).val = (B r q).val := by
  have h0 := (le_trans ρ.u_nonneg hru)
  have hn1 : ((n+1 : ℕ) : ℝ) * u < 1 :=
    lt_of_le_of_lt (mul_le_mul_of_nonneg_right (by exact_mod_cast (by omega : n + 1 ≤ 3*n+1)) h0) hu
  cases h : gaussElimU upd n nc A B x with
  | some X => exact ⟨X, rfl, fun q hq => gu_stable h1' hru hupd n nc hu A B x X h M hM q hq⟩
  | none =>
    exfalso
    obtain ⟨E, z, hE, ⟨c₀, hc₀, hz₀⟩, hk⟩ := gu_fails_only_near_singular h1' hru hupd n nc hn1 A B x h M hM
    obtain ⟨r, hr, hmax⟩ := exists_max_image (range n) (fun c => |z c|) ⟨c₀, mem_range.2 hc₀⟩
    have hrn := mem_range.1 hr
    have hzr : 0 < |z r| := lt_of_lt_of_le (abs_pos.2 hz₀) (hmax c₀ (mem_range.2 hc₀))
    set ε := gam u (n+1) * (2^n * (1+u)^(4*n+2) * M) with hε
    have e := hk r hrn
    rw [← add_sum_erase _ _ hr] at e
    have e1 : |((A r r).val + E r r) * z r| ≤ ∑ c ∈ (range n).erase r, (|(A r c).val| + ε) * |z r| := by
      rw [eq_neg_of_add_eq_zero_left e, abs_neg]
      refine le_trans (abs_sum_le_sum_abs _ _) (sum_le_sum fun c hc => ?_)
      have hcn := mem_of_mem_erase hc
      rw [abs_mul]
      refine mul_le_mul ?_ (hmax c hcn) (abs_nonneg _) ?_
      · exact le_trans (abs_add_le _ _) (add_le_add le_rfl (hE r c hrn (mem_range.1 hcn)))
      · exact add_nonneg (abs_nonneg _) (le_trans (abs_nonneg _) (hE r r hrn hrn))
    rw [abs_mul, ← sum_mul] at e1
    have e2 := le_of_mul_le_mul_right e1 hzr
    have e3 : |(A r r).val| - ε ≤ |(A r r).val + E r r| := by
      have a1 := abs_sub_abs_le_abs_sub (A r r).val (-(E r r))
      rw [abs_neg, sub_neg_eq_add] at a1
      have := hE r r hrn hrn
      linarith
    rw [sum_add_distrib, sum_const, card_erase_of_mem hr, card_range, nsmul_eq_mul,
      Nat.cast_sub (by omega : 1 ≤ n), Nat.cast_one] at e2
    have := hd r hrn
    nlinarith

end upd

/-- **C82** whenever `gaussian_elimination(A,B)` returns, partial pivoting has produced (up to rounding) a
factorisation `P A ≈ L U` with `|L_rk| ≤ |L_kk|`, `U` unit upper triangular, and every computed column of the
solution solves exactly a system with a matrix that differs from `A` by at most `γ_{3n+1} |L||U|`. -/
theorem c82_elim_backward (n nc : ℕ) (hu : ((3 * n + 1 : ℕ) : ℝ) * ρ.u < 1) (A B x X : Mat (Fu ρ ϰ))
    (h : gaussElim n nc A B x = some X) :
    ∃ (σ : ℕ → ℕ) (L U : Mat ℝ),
      (∀ r, r < n → σ r < n) ∧ (∀ r s, r < n → s < n → σ r = σ s → r = s) ∧
      (∀ r k, r < k → L r k = 0) ∧ (∀ r k, k < n → r < n → |L r k| ≤ |L k k|) ∧ (∀ k, k < n → L k k ≠ 0) ∧
      (∀ k c, c < k → U k c = 0) ∧ (∀ k, U k k = 1) ∧
      (∀ r c, r < n → c < n → |(A (σ r) c).val - ∑ k ∈ range n, L r k * U k c| ≤
        gam ρ.u (n+1) * ∑ k ∈ range n, |L r k| * |U k c|) ∧
      (∀ M, (∀ r c, r < n → c < n → |(A r c).val| ≤ M) → ∀ k r c, k < n → r < n → c < n →
        |L r k| * |U k c| ≤ (1+ρ.u)^2 * (2*(1+ρ.u)^4)^k * M) ∧
      ∀ q, q < nc → ∃ E : Mat ℝ,
        (∀ r c, r < n → c < n → |E (σ r) c| ≤ gam ρ.u (3*n+1) * ∑ k ∈ range n, |L r k| * |U k c|) ∧
        ∀ r, r < n → ∑ c ∈ range n, ((A r c).val + E r c) * (X c q).val = (B r q).val :=
  gu_backward ρ.u_lt_one le_rfl updOk_std n nc hu A B x X h

/-- **C82** a priori form (Wilkinson's bound): the computed solution solves exactly a system whose matrix differs from
`A`, entry by entry, by at most `γ_{3n+1} 2^n (1+u)^{4n+2} max|A|` — nothing but the input appears in the bound. -/
theorem c82_elim_stable (n nc : ℕ) (hu : ((3 * n + 1 : ℕ) : ℝ) * ρ.u < 1) (A B x X : Mat (Fu ρ ϰ))
    (h : gaussElim n nc A B x = some X) (M : ℝ) (hM : ∀ r c, r < n → c < n → |(A r c).val| ≤ M) (q : ℕ) (hq : q < nc) :
    ∃ E : Mat ℝ, (∀ r c, r < n → c < n → |E r c| ≤ gam ρ.u (3*n+1) * (2^n * (1+ρ.u)^(4*n+2) * M)) ∧
      ∀ r, r < n → ∑ c ∈ range n, ((A r c).val + E r c) * (X c q).val = (B r q).val :=
  gu_stable ρ.u_lt_one le_rfl updOk_std n nc hu A B x X h M hM q hq

/-- **C82** vector right-hand side -/
theorem c82_elim_stable_vector (n : ℕ) (hu : ((3 * n + 1 : ℕ) : ℝ) * ρ.u < 1) (A : Mat (Fu ρ ϰ)) (b y : Vec (Fu ρ ϰ))
    (x : Mat (Fu ρ ϰ)) (h : gaussElimV n A b x = some y) (M : ℝ) (hM : ∀ r c, r < n → c < n → |(A r c).val| ≤ M) :
    ∃ E : Mat ℝ, (∀ r c, r < n → c < n → |E r c| ≤ gam ρ.u (3*n+1) * (2^n * (1+ρ.u)^(4*n+2) * M)) ∧
      ∀ r, r < n → ∑ c ∈ range n, ((A r c).val + E r c) * (y c).val = (b r).val := by
  unfold gaussElimV at h
  cases hX : gaussElim n 1 A (fun i _ => b i) x with
  | none => rw [hX] at h; exact absurd h (by simp)
  | some X =>
    rw [hX, Option.bind_some] at h
    have := Option.some.inj h
    subst this
    exact c82_elim_stable n 1 hu A _ x X hX M hM 0 (by omega)

/-- **C82** `gaussian_elimination` divides by zero only for (numerically) singular matrices: then a matrix
within `γ_{n+1} 2^n (1+u)^{4n+2} max|A|` of `A` is exactly singular. -/
theorem c82_elim_fails_only_near_singular (n nc : ℕ) (hu : ((n + 1 : ℕ) : ℝ) * ρ.u < 1) (A B x : Mat (Fu ρ ϰ))
    (h : gaussElim n nc A B x = none) (M : ℝ) (hM : ∀ r c, r < n → c < n → |(A r c).val| ≤ M) :
    ∃ (E : Mat ℝ) (z : Vec ℝ), (∀ r c, r < n → c < n → |E r c| ≤ gam ρ.u (n+1) * (2^n * (1+ρ.u)^(4*n+2) * M)) ∧
      (∃ c, c < n ∧ z c ≠ 0) ∧ ∀ r, r < n → ∑ c ∈ range n, ((A r c).val + E r c) * z c = 0 :=
  gu_fails_only_near_singular ρ.u_lt_one le_rfl updOk_std n nc hu A B x h M hM

/-- **C82** so elimination succeeds, and is accurate, for every matrix that is diagonally dominant by more than the
rounding errors. -/
theorem c82_elim_dominant (n nc : ℕ) (hu : ((3 * n + 1 : ℕ) : ℝ) * ρ.u < 1) (A B x : Mat (Fu ρ ϰ))
    (M : ℝ) (hM : ∀ r c, r < n → c < n → |(A r c).val| ≤ M)
    (hd : ∀ r, r < n → ∑ c ∈ (range n).erase r, |(A r c).val| + n * (gam ρ.u (n+1) * (2^n * (1+ρ.u)^(4*n+2) * M)) <
      |(A r r).val|) :
    ∃ X, gaussElim n nc A B x = some X ∧ ∀ q, q < nc → ∃ E : Mat ℝ,
      (∀ r c, r < n → c < n → |E r c| ≤ gam ρ.u (3*n+1) * (2^n * (1+ρ.u)^(4*n+2) * M)) ∧
      ∀ r, r < n → ∑ c ∈ range n, ((A r c).val + E r c) * (X c q).val = (B r q).val :=
  gu_dominant ρ.u_lt_one le_rfl updOk_std n nc hu A B x M hM hd

/-- the hypotheses hold for `[[3,1],[1,3]]` in double precision -/
example (ϰ : Contract Rounding.double) (B : Mat (Fu Rounding.double ϰ)) :
    ∃ X, gaussElim 2 1 (fun r c : ℕ => if r = c then Fu.of ϰ 3 else 1) B (fun _ _ => 0) = some X := by
  have hu := Rounding.double_u
  have h3 : (Fu.of ϰ 3).val = 3 := by
    have := rndNearest_int 53 (by norm_num) 3 (by norm_num)
    exact_mod_cast this
  obtain ⟨X, hX, -⟩ := c82_elim_dominant (ρ := Rounding.double) (ϰ := ϰ) 2 1 (by rw [hu]; norm_num)
    (fun r c : ℕ => if r = c then Fu.of ϰ 3 else 1) B (fun _ _ => 0) 3
    (by
      intro r c _ _
      by_cases e : r = c
      · rw [if_pos e, h3]; norm_num
      · rw [if_neg e]; norm_num)
    (by
      intro r hr
      have hr : r = 0 ∨ r = 1 := by omega
      rcases hr with rfl | rfl
      · rw [show (range 2).erase 0 = {1} by decide, gam, hu]
        norm_num [h3]
      · rw [show (range 2).erase 1 = {0} by decide, gam, hu]
        norm_num [h3])
  exact ⟨X, hX⟩

end TooN.Fused
