import Verif.Proof.Float
import Verif.Proof.Cholesky
import Mathlib.Algebra.Order.Chebyshev
/-! Rounding error analysis of `Cholesky.h`. -/
set_option linter.unusedSectionVars false
namespace TooN.Chol
open Finset
variable {ρ : Rounding}

/-- entries of the unit lower triangular factor -/
noncomputable def lf (m : Mat (Fl ρ)) (r c : ℕ) : ℝ := if c < r then (m r c).val else if r = c then 1 else 0

/-- entry `(r,c)`, `c ≤ r`, of the factorised matrix, every term of `L D Lᵀ` perturbed by at most `N` roundings -/
def FFact (N : ℕ) (A m : Mat (Fl ρ)) (r c : ℕ) : Prop :=
  ∃ G : ℕ → ℝ, (∀ j, j ≤ c → Fac ρ.u N (G j)) ∧
    (A r c).val = ∑ j ∈ range c, (m c j).val * (m j j).val * (m r j).val * G j +
      (if r = c then (m c c).val else (m r c).val * (m c c).val) * G c

/-- loop invariant -/
structure FInv (n : Nat) (A : Mat (Fl ρ)) (col : Nat) (m : Mat (Fl ρ)) : Prop where
  diag : ∀ c, c < col → m c c ≠ 0
  cache : ∀ c r, c < col → c < r → r < n → ∃ f, Fac ρ.u 2 f ∧ (m c r).val = (m r c).val * (m c c).val * f
  fact : ∀ c r, c < col → c ≤ r → r < n → FFact (n+1) A m r c
  rest : ∀ r c, (col ≤ r ∧ col ≤ c) → m r c = A r c

theorem fval_inv {n col : Nat} {A m : Mat (Fl ρ)} (h : FInv n A col m) (r : Nat) (hr : col ≤ r) (hcn : col < n) :
    ∃ (g : ℝ) (G : ℕ → ℝ), Fac ρ.u col g ∧ (∀ j, j < col → Fac ρ.u (col + 2) (G j)) ∧
    (A r col).val = (val m r col).val * g +
      ∑ j ∈ range col, (m col j).val * (m j j).val * (m r j).val * G j := by
  have h0 := ρ.u_nonneg
  have h1 := ρ.u_lt_one
  obtain ⟨g, f, hg, hf, e⟩ := forN_sub_fac col (fun k => m k col) (fun k => m r k) (m r col)
  have hc : ∀ j, ∃ q, j < col → Fac ρ.u 2 q ∧ (m j col).val = (m col j).val * (m j j).val * q := by
    intro j
    by_cases hj : j < col
    · obtain ⟨q, hq⟩ := h.cache j col hj hj hcn
      exact ⟨q, fun _ => hq⟩
    · exact ⟨0, fun h => absurd h hj⟩
  choose q hq using hc
  refine ⟨g, fun j => q j * f j, hg, fun j hj => ?_, ?_⟩
  · have := (hf j hj).mul h0 h1 (hq j hj).1
    rwa [mul_comm] at this
  · rw [← h.rest r col ⟨hr, le_refl _⟩, e]
    unfold val
    congr 1
    apply sum_congr rfl
    intro j hj
    dsimp only
    rw [(hq j (mem_range.1 hj)).2]; ring

theorem FFact.congr {N : ℕ} {A m m' : Mat (Fl ρ)} {r c : ℕ} (h : FFact N A m r c)
    (h1 : ∀ j, j ≤ c → m' c j = m c j) (h2 : ∀ j, j ≤ c → m' r j = m r j) (h3 : ∀ j, j ≤ c → m' j j = m j j) :
    FFact N A m' r c := by
  obtain ⟨G, hG, e⟩ := h
  refine ⟨G, hG, ?_⟩
  rw [h3 c le_rfl, h2 c le_rfl, e]
  congr 1
  apply sum_congr rfl
  intro j hj
  have := (mem_range.1 hj).le
  rw [h1 j this, h2 j this, h3 j this]

theorem fcolRes_inv {n col : Nat} {A m : Mat (Fl ρ)} (hcn : col < n) (h : FInv n A col m)
    (hv : val m col col ≠ 0) : FInv n A (col+1) (colRes n col m) := by
  have h0 := ρ.u_nonneg
  have h1 := ρ.u_lt_one
  have hv' : (val m col col).val ≠ 0 := fun h => hv ((Fl.eq_zero_iff _).2 h)
  have hdd : colRes n col m col col = val m col col := by
    unfold colRes; rw [if_pos ⟨rfl, rfl⟩]
  have hlow : ∀ r, col < r → r < n → colRes n col m r col = val m r col * (1 / val m col col) := by
    intro r h1 h2; unfold colRes; rw [if_neg (by omega), if_neg (by omega), if_pos (by omega)]
  have hj : ∀ r j, j < col → colRes n col m r j = m r j := by
    intro r j hj; unfold colRes; rw [if_neg (by omega), if_neg (by omega), if_neg (by omega)]
  have hl : ∀ r, col < r → r < n → ∃ f, Fac ρ.u 2 f ∧
      (val m r col).val = (colRes n col m r col).val * (val m col col).val * f := by
    intro r h2 h3
    obtain ⟨a, ha, ea⟩ := Fl.div_fac (1 : Fl ρ) (val m col col)
    obtain ⟨b, hb, eb⟩ := Fl.mul_fac (val m r col) (1 / val m col col)
    refine ⟨(a * b)⁻¹, ((ha.mul h0 h1 hb).inv h0 h1), ?_⟩
    have a0 := (ha.pos h0 h1).ne'
    have b0 := (hb.pos h0 h1).ne'
    rw [hlow r h2 h3, eb, ea, Fl.val_one]
    field_simp
  refine ⟨?_, ?_, ?_, ?_⟩
  · intro c hc
    by_cases e : c = col
    · subst e; rw [hdd]; exact hv
    · rw [hj c c (by omega)]; exact h.diag c (by omega)
  · intro c r hc hcr hrn
    by_cases e : c = col
    · subst e
      have : colRes n c m c r = val m r c := by
        unfold colRes; rw [if_neg (by omega), if_pos (by omega)]
      rw [hdd, this]
      exact hl r hcr hrn
    · have : colRes n col m c r = m c r := by
        unfold colRes; rw [if_neg (by omega), if_neg (by omega), if_neg (by omega)]
      rw [this, hj r c (by omega), hj c c (by omega)]
      exact h.cache c r (by omega) hcr hrn
  · intro c r hc hcr hrn
    by_cases e : c = col
    · subst e
      obtain ⟨g, G, hg, hG, eA⟩ := fval_inv h r hcr hcn
      have hsum : ∀ G' : ℕ → ℝ, (∀ j, j < c → G' j = G j) →
          ∑ j ∈ range c, (colRes n c m c j).val * (colRes n c m j j).val * (colRes n c m r j).val * G' j =
          ∑ j ∈ range c, (m c j).val * (m j j).val * (m r j).val * G j := by
        intro G' hG'
        apply sum_congr rfl
        intro j hjj
        have := mem_range.1 hjj
        rw [hj c j (by omega), hj j j (by omega), hj r j (by omega), hG' j this]
      by_cases e2 : r = c
      · subst e2
        refine ⟨fun j => if j < r then G j else g, fun j hjr => ?_, ?_⟩
        · dsimp only
          split_ifs with hlt
          · exact (hG j hlt).mono h0 h1 (by omega)
          · exact hg.mono h0 h1 (by omega)
        · rw [hsum _ (fun j hj => if_pos hj), if_pos rfl]; beta_reduce; rw [if_neg (lt_irrefl r), hdd, eA]; ring
      · obtain ⟨f, hf, ef⟩ := hl r (by omega) hrn
        refine ⟨fun j => if j < c then G j else f * g, fun j hjr => ?_, ?_⟩
        · dsimp only
          split_ifs with hlt
          · exact (hG j hlt).mono h0 h1 (by omega)
          · exact (hf.mul h0 h1 hg).mono h0 h1 (by omega)
        · rw [hsum _ (fun j hj => if_pos hj), if_neg e2]; beta_reduce; rw [if_neg (lt_irrefl c), hdd, eA, ef]; ring
    · exact (h.fact c r (by omega) hcr hrn).congr (fun j hjc => hj _ _ (by omega))
        (fun j hjc => hj _ _ (by omega)) (fun j hjc => hj _ _ (by omega))
  · intro r c hrc
    rw [colRes_lt _ _ _ _ _ (by omega) (by omega)]
    exact h.rest r c ⟨by omega, by omega⟩

/-- invariant on states -/
def FSInv (n : Nat) (A : Mat (Fl ρ)) (col : Nat) : St (Fl ρ) → Prop
  | .run m _ => FInv n A col m
  | .ret m k => k < n ∧ (∀ c, c < k → m c c ≠ 0) ∧ m k k = 0 ∧ ∀ c r, c ≤ r → r ≤ k → FFact (n+1) A m r c

theorem fcompute_inv (n : Nat) (A : Mat (Fl ρ)) : FSInv n A n (forN n (colBody n) (.run A 1)) := by
  have h0 := ρ.u_nonneg
  have h1 := ρ.u_lt_one
  refine forN_inv (FSInv n A) n (colBody n) (.run A 1)
    ⟨fun c hc => by omega, fun c r hc => by omega, fun c r hc => by omega, fun _ _ _ => rfl⟩ ?_
  intro col s hcol hs
  match s with
  | .ret m k => exact hs
  | .run m inv =>
    rw [colBody_spec n col hcol]
    by_cases hv : val m col col = 0
    · rw [if_pos hv]
      have hs : FInv n A col m := hs
      have hne : ∀ r c, ¬ (r = col ∧ c = col) → Mat.set m col col 0 r c = m r c :=
        fun r c h => Mat.set_ne _ _ _ _ _ _ h
      refine ⟨hcol, ?_, by rw [Mat.set_self], ?_⟩
      · intro c hc; rw [hne _ _ (by omega)]; exact hs.diag c hc
      · intro c r hcr hr
        by_cases e : c = col
        · have e2 : r = c := by omega
          subst e2; subst e
          obtain ⟨g, G, hg, hG, eA⟩ := fval_inv hs r le_rfl hcol
          refine ⟨fun j => if j < r then G j else 1, fun j hjr => ?_, ?_⟩
          · dsimp only
            split_ifs with hlt
            · exact (hG j hlt).mono h0 h1 (by omega)
            · exact Fac.one h0 h1 _
          · rw [if_pos rfl, Mat.set_self, Fl.val_zero, zero_mul, add_zero, eA, hv, Fl.val_zero, zero_mul, zero_add]
            apply sum_congr rfl
            intro j hj
            have := mem_range.1 hj
            beta_reduce; rw [hne _ _ (by omega), hne _ _ (by omega), if_pos this]
        · exact (hs.fact c r (by omega) hcr (by omega)).congr (fun j hjc => hne _ _ (by omega))
            (fun j hjc => hne _ _ (by omega)) (fun j hjc => hne _ _ (by omega))
    · rw [if_neg hv]
      exact fcolRes_inv hcol hs hv

/-- summary of `do_compute` -/
theorem fcompute_spec (n : Nat) (A : Mat (Fl ρ)) :
    ((compute n A).2 = n ∧ (∀ c, c < n → (compute n A).1 c c ≠ 0) ∧
      ∀ c r, c ≤ r → r < n → FFact (n+1) A (compute n A).1 r c) ∨
    ((compute n A).2 < n ∧ (∀ c, c < (compute n A).2 → (compute n A).1 c c ≠ 0) ∧
      (compute n A).1 (compute n A).2 (compute n A).2 = 0 ∧
      ∀ c r, c ≤ r → r ≤ (compute n A).2 → FFact (n+1) A (compute n A).1 r c) := by
  have h := fcompute_inv n A
  unfold compute
  cases hq : forN n (colBody n) (.run A 1) with
  | run m inv =>
    rw [hq] at h
    have h : FInv n A n m := h
    exact Or.inl ⟨rfl, h.diag, fun c r h1 h2 => h.fact c r (by omega) h1 h2⟩
  | ret m k =>
    rw [hq] at h
    exact Or.inr h

/-- the entry in terms of the full factors, summed over any range containing the nonzero terms -/
theorem FFact.full {N k : ℕ} {A m : Mat (Fl ρ)} {r c : ℕ} (h : FFact N A m r c) (hcr : c ≤ r) (hck : c < k) :
    ∃ G : ℕ → ℝ, (∀ j, Fac ρ.u N (G j)) ∧
      (A r c).val = ∑ j ∈ range k, lf m r j * (m j j).val * lf m c j * G j := by
  have h0 := ρ.u_nonneg
  have h1 := ρ.u_lt_one
  obtain ⟨G, hG, e⟩ := h
  refine ⟨fun j => if j ≤ c then G j else 1, fun j => ?_, ?_⟩
  · dsimp only
    split_ifs with hj
    · exact hG j hj
    · exact Fac.one h0 h1 _
  · rw [sum_range_le hck, e]
    · congr 1
      · apply sum_congr rfl
        intro j hj
        have := mem_range.1 hj
        beta_reduce
        rw [if_pos this.le]
        unfold lf
        rw [if_pos (by omega), if_pos this]; ring
      · beta_reduce
        rw [if_pos le_rfl]
        unfold lf
        rw [if_neg (lt_irrefl c), if_pos rfl]
        by_cases e : r = c
        · rw [if_pos e, if_neg (by omega), if_pos e]; ring
        · rw [if_neg e, if_pos (by omega)]; ring
    · intro j hj
      unfold lf
      rw [if_neg (by omega : ¬ j < c), if_neg (by omega : ¬ c = j)]; ring

/-- both halves -/
theorem ffull {n k : ℕ} {A m : Mat (Fl ρ)} {N : ℕ} (hk : ∀ c r, c ≤ r → r < k → FFact N A m r c) :
    ∃ G : ℕ → ℕ → ℕ → ℝ, (∀ r c j, Fac ρ.u N (G r c j)) ∧ ∀ r c, r < k → c < k →
      (lowerSym A r c).val = ∑ j ∈ range k, lf m r j * (m j j).val * lf m c j * G r c j := by
  have h0 := ρ.u_nonneg
  have h1 := ρ.u_lt_one
  have : ∀ r c, ∃ G : ℕ → ℝ, (∀ j, Fac ρ.u N (G j)) ∧ (r < k → c < k →
      (lowerSym A r c).val = ∑ j ∈ range k, lf m r j * (m j j).val * lf m c j * G j) := by
    intro r c
    by_cases hrc : r < k ∧ c < k
    · by_cases hle : c ≤ r
      · obtain ⟨G, hG, e⟩ := (hk c r hle hrc.1).full hle hrc.2
        exact ⟨G, hG, fun _ _ => by rw [lowerSym, if_pos hle, e]⟩
      · obtain ⟨G, hG, e⟩ := (hk r c (by omega) hrc.2).full (by omega) hrc.1
        refine ⟨G, hG, fun _ _ => ?_⟩
        rw [lowerSym, if_neg hle, e]
        exact sum_congr rfl (fun j _ => by ring)
    · exact ⟨fun _ => 1, fun _ => Fac.one h0 h1 _, fun a b => absurd ⟨a, b⟩ hrc⟩
  choose G hG using this
  exact ⟨G, fun r c j => (hG r c).1 j, fun r c => (hG r c).2⟩

/-! ### back substitution -/

theorem ffwd (n : ℕ) (m : Mat (Fl ρ)) (v u : Vec (Fl ρ)) :
    ∃ F : ℕ → ℕ → ℝ, (∀ i j, Fac ρ.u (n-1) (F i j)) ∧
      ∀ i, i < n → (v i).val = ∑ j ∈ range n, lf m i j * F i j * (fwd n m v u j).val := by
  have h0 := ρ.u_nonneg
  have h1 := ρ.u_lt_one
  have : ∀ i, ∃ F : ℕ → ℝ, (∀ j, Fac ρ.u (n-1) (F j)) ∧
      (i < n → (v i).val = ∑ j ∈ range n, lf m i j * F j * (fwd n m v u j).val) := by
    intro i
    by_cases hi : i < n
    · obtain ⟨g, f, hg, hf, e⟩ := forN_sub_fac i (fun j => m i j) (fun j => fwd n m v u j) (v i)
      rw [← fwd_gen n m v u i hi] at e
      refine ⟨fun j => if j < i then f j else if j = i then g else 1, fun j => ?_, fun _ => ?_⟩
      · dsimp only
        split_ifs with a b
        · exact (hf j a).mono h0 h1 (by omega)
        · exact hg.mono h0 h1 (by omega)
        · exact Fac.one h0 h1 _
      · rw [sum_range_le hi, e, add_comm]
        · congr 1
          · apply sum_congr rfl
            intro j hj
            have := mem_range.1 hj
            unfold lf
            beta_reduce
            rw [if_pos this, if_pos this]; ring
          · unfold lf
            beta_reduce
            rw [if_neg (lt_irrefl i), if_pos rfl, if_neg (lt_irrefl i), if_pos rfl]; ring
        · intro j hj
          unfold lf
          rw [if_neg (by omega : ¬ j < i), if_neg (by omega : ¬ i = j)]; ring
    · exact ⟨fun _ => 1, fun _ => Fac.one h0 h1 _, fun h => absurd h hi⟩
  choose F hF using this
  exact ⟨F, fun i j => (hF i).1 j, fun i => (hF i).2⟩

theorem fbwd (n : ℕ) (m : Mat (Fl ρ)) (z w : Vec (Fl ρ)) :
    ∃ F : ℕ → ℕ → ℝ, (∀ i j, Fac ρ.u (n-1) (F i j)) ∧
      ∀ i, i < n → (z i).val = ∑ k ∈ range n, lf m k i * F i k * (bwd n m z w k).val := by
  have h0 := ρ.u_nonneg
  have h1 := ρ.u_lt_one
  have : ∀ i, ∃ F : ℕ → ℝ, (∀ j, Fac ρ.u (n-1) (F j)) ∧
      (i < n → (z i).val = ∑ k ∈ range n, lf m k i * F k * (bwd n m z w k).val) := by
    intro i
    by_cases hi : i < n
    · obtain ⟨g, f, hg, hf, e⟩ := forRange_sub_fac (i+1) n (fun j => m j i) (fun j => bwd n m z w j) (z i)
      rw [← bwd_gen n m z w i hi] at e
      refine ⟨fun k => if i < k ∧ k < n then f k else if k = i then g else 1, fun j => ?_, fun _ => ?_⟩
      · dsimp only
        split_ifs with a b
        · exact (hf j (by omega) a.2).mono h0 h1 (by omega)
        · exact hg.mono h0 h1 (by omega)
        · exact Fac.one h0 h1 _
      · rw [range_eq_Ico, ← sum_Ico_consecutive _ (Nat.zero_le i) hi.le, sum_eq_sum_Ico_succ_bot hi,
          sum_eq_zero (s := Ico 0 i), zero_add, e]
        · congr 1
          · unfold lf
            beta_reduce
            rw [if_neg (lt_irrefl i), if_pos rfl, if_neg (by omega), if_pos rfl]; ring
          · apply sum_congr rfl
            intro k hk
            have := mem_Ico.1 hk
            unfold lf
            beta_reduce
            rw [if_pos (by omega), if_pos (by omega)]; ring
        · intro k hk
          have := mem_Ico.1 hk
          unfold lf
          rw [if_neg (by omega : ¬ i < k), if_neg (by omega : ¬ k = i)]; ring
    · exact ⟨fun _ => 1, fun _ => Fac.one h0 h1 _, fun h => absurd h hi⟩
  choose F hF using this
  exact ⟨F, fun i j => (hF i).1 j, fun i => (hF i).2⟩

/-- the three stages together; the division stage is a parameter (`q` roundings) -/
theorem fsolve (n q : ℕ) (m : Mat (Fl ρ)) (v u z w : Vec (Fl ρ))
    (hz : ∀ j, j < n → ∃ f, Fac ρ.u q f ∧ (fwd n m v u j).val = (m j j).val * (z j).val * f) :
    ∃ F : ℕ → ℕ → ℕ → ℝ, (∀ i k j, Fac ρ.u (n-1 + q + (n-1)) (F i k j)) ∧ ∀ i, i < n →
      (v i).val = ∑ k ∈ range n, (∑ j ∈ range n, lf m i j * (m j j).val * lf m k j * F i k j) *
        (bwd n m z w k).val := by
  have h0 := ρ.u_nonneg
  have h1 := ρ.u_lt_one
  obtain ⟨F, hF, eF⟩ := ffwd n m v u
  obtain ⟨H, hH, eH⟩ := fbwd n m z w
  have : ∀ j, ∃ f, Fac ρ.u q f ∧ (j < n → (fwd n m v u j).val = (m j j).val * (z j).val * f) := by
    intro j
    by_cases hj : j < n
    · obtain ⟨f, hf, e⟩ := hz j hj; exact ⟨f, hf, fun _ => e⟩
    · exact ⟨1, Fac.one h0 h1 _, fun h => absurd h hj⟩
  choose D hD using this
  refine ⟨fun i k j => F i j * D j * H j k, fun i k j => ((hF i j).mul h0 h1 (hD j).1).mul h0 h1 (hH j k), ?_⟩
  intro i hi
  rw [eF i hi]
  have e1 : ∀ j ∈ range n, lf m i j * F i j * (fwd n m v u j).val =
      ∑ k ∈ range n, lf m i j * (m j j).val * lf m k j * (F i j * D j * H j k) * (bwd n m z w k).val := by
    intro j hj
    have hjn := mem_range.1 hj
    rw [(hD j).2 hjn, eH j hjn, mul_sum, sum_mul, mul_sum]
    exact sum_congr rfl (fun k _ => by ring)
  rw [sum_congr rfl e1, sum_comm]
  exact sum_congr rfl (fun k _ => by rw [sum_mul])

/-- combination with the factorisation: a backward error -/
theorem fbackward (n a b : ℕ) (hu : ((a + b : ℕ) : ℝ) * ρ.u < 1) (L : Mat ℝ) (D : Vec ℝ) (B : Mat ℝ)
    (v x : Vec ℝ) (F G : ℕ → ℕ → ℕ → ℝ) (hF : ∀ i k j, Fac ρ.u a (F i k j)) (hG : ∀ i k j, Fac ρ.u b (G i k j))
    (eF : ∀ i, i < n → v i = ∑ k ∈ range n, (∑ j ∈ range n, L i j * D j * L k j * F i k j) * x k)
    (eG : ∀ i k, i < n → k < n → B i k = ∑ j ∈ range n, L i j * D j * L k j * G i k j) :
    ∃ E : Mat ℝ, (∀ i k, i < n → k < n → |E i k| ≤ gam ρ.u (a + b) * ∑ j ∈ range n, |L i j| * |D j| * |L k j|) ∧
      ∀ i, i < n → ∑ k ∈ range n, (B i k + E i k) * x k = v i := by
  have h0 := ρ.u_nonneg
  have h1 := ρ.u_lt_one
  have hu' : (a:ℝ) * ρ.u + b * ρ.u < 1 := by push_cast at hu; linarith
  have ha : (a:ℝ) * ρ.u < 1 := by nlinarith [mul_nonneg (Nat.cast_nonneg (α := ℝ) b) h0]
  have hb : (b:ℝ) * ρ.u < 1 := by nlinarith [mul_nonneg (Nat.cast_nonneg (α := ℝ) a) h0]
  refine ⟨fun i k => ∑ j ∈ range n, L i j * D j * L k j * (F i k j - G i k j), fun i k _ _ => ?_, fun i hi => ?_⟩
  · rw [mul_sum]
    refine le_trans (abs_sum_le_sum_abs _ _) (sum_le_sum fun j _ => ?_)
    rw [abs_mul, abs_mul, abs_mul, mul_comm]
    apply mul_le_mul_of_nonneg_right _ (by positivity)
    calc |F i k j - G i k j| = |(F i k j - 1) - (G i k j - 1)| := by ring_nf
      _ ≤ |F i k j - 1| + |G i k j - 1| := abs_sub _ _
      _ ≤ gam ρ.u a + gam ρ.u b := add_le_add ((hF i k j).gam h0 h1 ha) ((hG i k j).gam h0 h1 hb)
      _ ≤ _ := gam_add h0 h1 hu
  · rw [eF i hi]
    apply sum_congr rfl
    intro k hk
    rw [eG i k hi (mem_range.1 hk), ← sum_add_distrib]
    congr 1
    exact sum_congr rfl (fun j _ => by ring)

/-! ### positive definite matrices -/

/-- with nonnegative `D`, `|L| D |Lᵀ|` is bounded by the diagonal of the factorised matrix -/
theorem cauchy_bound (k : ℕ) (L : Mat ℝ) (D : Vec ℝ) (hD : ∀ j, j < k → 0 ≤ D j) (r c : ℕ) :
    ∑ j ∈ range k, |L r j| * |D j| * |L c j| ≤
      Real.sqrt (∑ j ∈ range k, L r j ^ 2 * D j) * Real.sqrt (∑ j ∈ range k, L c j ^ 2 * D j) := by
  have hr : ∑ j ∈ range k, L r j ^ 2 * D j = ∑ j ∈ range k, (|L r j| * Real.sqrt |D j|) ^ 2 :=
    sum_congr rfl fun j hj => by
      have h := hD j (mem_range.1 hj)
      rw [mul_pow, sq_abs, Real.sq_sqrt (abs_nonneg _), abs_of_nonneg h]
  have hc : ∑ j ∈ range k, L c j ^ 2 * D j = ∑ j ∈ range k, (|L c j| * Real.sqrt |D j|) ^ 2 :=
    sum_congr rfl fun j hj => by
      have h := hD j (mem_range.1 hj)
      rw [mul_pow, sq_abs, Real.sq_sqrt (abs_nonneg _), abs_of_nonneg h]
  have e : ∑ j ∈ range k, |L r j| * |D j| * |L c j| =
      ∑ j ∈ range k, (|L r j| * Real.sqrt |D j|) * (|L c j| * Real.sqrt |D j|) :=
    sum_congr rfl fun j _ => by
      have := Real.mul_self_sqrt (abs_nonneg (D j))
      calc |L r j| * |D j| * |L c j| = |L r j| * (Real.sqrt |D j| * Real.sqrt |D j|) * |L c j| := by rw [this]
        _ = _ := by ring
  rw [e, hr, hc, ← Real.sqrt_mul (sum_nonneg fun _ _ => sq_nonneg _)]
  exact Real.le_sqrt_of_sq_le (sum_mul_sq_le_sq_mul_sq _ _ _)

/-- a diagonal entry controls its terms -/
theorem diag_bound (k : ℕ) (γ : ℝ) (hγ : γ < 1) (L : Mat ℝ) (D : Vec ℝ) (hD : ∀ j, j < k → 0 ≤ D j) (r : ℕ)
    (G : ℕ → ℝ) (hG : ∀ j, |G j - 1| ≤ γ) (b : ℝ)
    (e : b = ∑ j ∈ range k, L r j * D j * L r j * G j) :
    ∑ j ∈ range k, L r j ^ 2 * D j ≤ b / (1 - γ) := by
  rw [le_div_iff₀ (by linarith), sum_mul, e]
  refine sum_le_sum fun j hj => ?_
  have h1 := (abs_le.1 (hG j)).1
  have h2 : 0 ≤ L r j ^ 2 * D j := mul_nonneg (sq_nonneg _) (hD j (mem_range.1 hj))
  nlinarith

/-- a perturbed factorisation cannot be far from semidefinite along a vector killed by the factors -/
theorem killed_bound (k : ℕ) (γ : ℝ) (hγ0 : 0 ≤ γ) (hγ : γ < 1) (L : Mat ℝ) (D : Vec ℝ)
    (hD : ∀ j, j < k → 0 ≤ D j) (G : ℕ → ℕ → ℕ → ℝ) (hG : ∀ r c j, |G r c j - 1| ≤ γ) (B : Mat ℝ)
    (eB : ∀ r c, r < k → c < k → B r c = ∑ j ∈ range k, L r j * D j * L c j * G r c j)
    (x : Vec ℝ) (hx : ∀ j, j < k → D j ≠ 0 → ∑ i ∈ range k, L i j * x i = 0) :
    ∑ r ∈ range k, ∑ c ∈ range k, x r * x c * B r c ≤
      k * (γ / (1 - γ)) * ∑ r ∈ range k, B r r * x r ^ 2 := by
  have hp : 0 < 1 - γ := by linarith
  -- the unperturbed quadratic form vanishes
  have z : ∑ r ∈ range k, ∑ c ∈ range k, x r * x c * ∑ j ∈ range k, L r j * D j * L c j = 0 := by
    have : ∑ r ∈ range k, ∑ c ∈ range k, x r * x c * ∑ j ∈ range k, L r j * D j * L c j =
        ∑ j ∈ range k, D j * (∑ i ∈ range k, L i j * x i) * (∑ i ∈ range k, L i j * x i) := by
      have e : ∀ r ∈ range k, ∑ c ∈ range k, x r * x c * ∑ j ∈ range k, L r j * D j * L c j =
          ∑ j ∈ range k, ∑ c ∈ range k, D j * (L r j * x r) * (L c j * x c) := by
        intro r _
        rw [sum_comm]
        exact sum_congr rfl fun c _ => by rw [mul_sum]; exact sum_congr rfl fun j _ => by ring
      rw [sum_congr rfl e, sum_comm]
      refine sum_congr rfl fun j _ => ?_
      rw [mul_assoc, sum_mul_sum, mul_sum]
      refine sum_congr rfl fun r _ => ?_
      rw [mul_sum]
      exact sum_congr rfl fun c _ => by ring
    rw [this]
    refine sum_eq_zero fun j hj => ?_
    by_cases h : D j = 0
    · rw [h]; ring
    · rw [hx j (mem_range.1 hj) h]; ring
  have s1 : ∑ r ∈ range k, ∑ c ∈ range k, x r * x c * B r c =
      ∑ r ∈ range k, ∑ c ∈ range k, x r * x c * ∑ j ∈ range k, L r j * D j * L c j * (G r c j - 1) := by
    rw [← sub_zero (∑ r ∈ range k, ∑ c ∈ range k, x r * x c * B r c), ← z, ← sum_sub_distrib]
    refine sum_congr rfl fun r hr => ?_
    rw [← sum_sub_distrib]
    refine sum_congr rfl fun c hc => ?_
    rw [← mul_sub, eB r c (mem_range.1 hr) (mem_range.1 hc), ← sum_sub_distrib]
    congr 1
    exact sum_congr rfl fun j _ => by ring
  have s2 : ∑ r ∈ range k, ∑ c ∈ range k, x r * x c * ∑ j ∈ range k, L r j * D j * L c j * (G r c j - 1) ≤
      γ * ∑ j ∈ range k, D j * (∑ r ∈ range k, |L r j * x r|) ^ 2 := by
    have e : γ * ∑ j ∈ range k, D j * (∑ r ∈ range k, |L r j * x r|) ^ 2 =
        ∑ r ∈ range k, ∑ c ∈ range k, ∑ j ∈ range k, γ * (D j * |L r j * x r| * |L c j * x c|) := by
      have e1 : ∀ j ∈ range k, D j * (∑ r ∈ range k, |L r j * x r|) ^ 2 =
          ∑ r ∈ range k, ∑ c ∈ range k, D j * |L r j * x r| * |L c j * x c| := by
        intro j _
        rw [sq, sum_mul_sum, mul_sum]
        refine sum_congr rfl fun r _ => ?_
        rw [mul_sum]
        exact sum_congr rfl fun c _ => by ring
      rw [sum_congr rfl e1, sum_comm, mul_sum]
      refine sum_congr rfl fun r _ => ?_
      rw [sum_comm, mul_sum]
      refine sum_congr rfl fun c _ => ?_
      rw [mul_sum]
    rw [e]
    refine sum_le_sum fun r _ => sum_le_sum fun c _ => ?_
    rw [mul_sum]
    refine sum_le_sum fun j hj => ?_
    have hd := hD j (mem_range.1 hj)
    refine le_trans (le_abs_self _) ?_
    rw [show x r * x c * (L r j * D j * L c j * (G r c j - 1)) =
      (G r c j - 1) * (D j * (L r j * x r) * (L c j * x c)) by ring, abs_mul, abs_mul, abs_mul, abs_of_nonneg hd]
    exact mul_le_mul_of_nonneg_right (hG r c j) (by positivity)
  have s3 : ∑ j ∈ range k, D j * (∑ r ∈ range k, |L r j * x r|) ^ 2 ≤
      k * ∑ r ∈ range k, x r ^ 2 * ∑ j ∈ range k, L r j ^ 2 * D j := by
    have : ∀ j ∈ range k, D j * (∑ r ∈ range k, |L r j * x r|) ^ 2 ≤
        k * ∑ r ∈ range k, x r ^ 2 * (L r j ^ 2 * D j) := by
      intro j hj
      have hd := hD j (mem_range.1 hj)
      have hcs := sq_sum_le_card_mul_sum_sq (s := range k) (f := fun r => |L r j * x r|)
      rw [card_range] at hcs
      calc D j * (∑ r ∈ range k, |L r j * x r|) ^ 2 ≤ D j * (k * ∑ r ∈ range k, |L r j * x r| ^ 2) :=
            mul_le_mul_of_nonneg_left hcs hd
        _ = _ := by
            rw [mul_left_comm, mul_sum]
            congr 1
            refine sum_congr rfl fun r _ => ?_
            rw [sq_abs]; ring
    refine le_trans (sum_le_sum this) (le_of_eq ?_)
    rw [← mul_sum, sum_comm]
    congr 1
    exact sum_congr rfl fun r _ => by rw [mul_sum]
  have s4 : ∑ r ∈ range k, x r ^ 2 * ∑ j ∈ range k, L r j ^ 2 * D j ≤
      (1 / (1 - γ)) * ∑ r ∈ range k, B r r * x r ^ 2 := by
    rw [mul_sum]
    refine sum_le_sum fun r hr => ?_
    have := diag_bound k γ hγ L D hD r (G r r) (hG r r) (B r r) (eB r r (mem_range.1 hr) (mem_range.1 hr))
    calc x r ^ 2 * ∑ j ∈ range k, L r j ^ 2 * D j ≤ x r ^ 2 * (B r r / (1 - γ)) :=
          mul_le_mul_of_nonneg_left this (sq_nonneg _)
      _ = _ := by ring
  rw [s1]
  calc _ ≤ γ * (k * ((1 / (1 - γ)) * ∑ r ∈ range k, B r r * x r ^ 2)) :=
        le_trans s2 (mul_le_mul_of_nonneg_left (le_trans s3 (mul_le_mul_of_nonneg_left s4 (by positivity))) hγ0)
    _ = _ := by ring

/-- a vector that isolates pivot `c` -/
theorem isolate (m : Mat (Fl ρ)) (c : ℕ) : ∃ x : Vec ℝ, (∀ i, c < i → x i = 0) ∧ x c = 1 ∧
    ∀ j, j < c → ∑ i ∈ range (c+1), lf m i j * x i = 0 := by
  set L := Lmat (c+1) (rmat m) with hL
  have hu : IsUnit (L.transpose).det := by
    rw [Matrix.det_transpose, hL, Lmat_det]; exact isUnit_one
  let e : Fin (c+1) → ℝ := Pi.single (Fin.last c) 1
  let x := (L.transpose)⁻¹.mulVec e
  have hx : L.transpose.mulVec x = e := by
    simp only [x]
    rw [Matrix.mulVec_mulVec, Matrix.mul_nonsing_inv _ hu, Matrix.one_mulVec]
  let y : Vec ℝ := fun i => if h : i < c + 1 then x ⟨i, h⟩ else 0
  have hsum : ∀ j : Fin (c+1), ∑ i ∈ range (c+1), lf m i j * y i = e j := by
    intro j
    rw [← hx, ← Fin.sum_univ_eq_sum_range (fun i => lf m i j * y i)]
    simp only [Matrix.mulVec, dotProduct]
    refine sum_congr rfl fun i _ => ?_
    simp only [y, dif_pos i.2]
    rfl
  refine ⟨y, fun i hi => ?_, ?_, fun j hj => ?_⟩
  · simp only [y]; rw [dif_neg (by omega)]
  · have h := hsum (Fin.last c)
    rw [sum_range_succ, sum_eq_zero] at h
    · simp only [Fin.val_last, lf, lt_irrefl, if_false, if_true, e, Pi.single_eq_same] at h
      linarith
    · intro i hi
      have := mem_range.1 hi
      simp only [Fin.val_last, lf]
      rw [if_neg (by omega), if_neg (by omega), zero_mul]
  · have h := hsum ⟨j, by omega⟩
    rw [h]
    simp only [e]
    rw [Pi.single_eq_of_ne]
    intro h; have := congrArg Fin.val h; simp at this; omega

/-- a numerically positive definite matrix has a positive pivot at every stage -/
theorem fpivot_pos (n c : ℕ) (hc : c < n) (A m : Mat (Fl ρ)) (hu : ((n + 1 : ℕ) : ℝ) * ρ.u < 1)
    (hγ : gam ρ.u (n+1) < 1) (μ : ℝ) (hμ : n * (gam ρ.u (n+1) / (1 - gam ρ.u (n+1))) < μ)
    (hpos : ∀ i, i < n → 0 < (A i i).val)
    (hpd : ∀ x : Vec ℝ, μ * ∑ i ∈ range n, (A i i).val * x i ^ 2 ≤
      ∑ r ∈ range n, ∑ c ∈ range n, x r * x c * (lowerSym A r c).val)
    (hf : ∀ c' r, c' ≤ r → r < c + 1 → FFact (n+1) A m r c') (hd : ∀ j, j < c → 0 < (m j j).val) :
    0 < (m c c).val := by
  have h0 := ρ.u_nonneg
  have h1 := ρ.u_lt_one
  by_contra hneg
  push Not at hneg
  set γ := gam ρ.u (n+1) with hγd
  have hγ0 : 0 ≤ γ := gam_nonneg h0 h1 hu
  set κ := γ / (1 - γ) with hκ
  have hκ0 : 0 ≤ κ := div_nonneg hγ0 (by linarith)
  obtain ⟨G, hG, eG⟩ := ffull (n := n) hf
  set S : Mat ℝ := fun r c => (lowerSym A r c).val with hS
  have Sdiag : ∀ i, S i i = (A i i).val := fun i => by simp only [hS, lowerSym]; rw [if_pos le_rfl]
  set D : Vec ℝ := fun j => if j = c then 0 else (m j j).val with hD
  set B : Mat ℝ := fun r c' => ∑ j ∈ range (c+1), lf m r j * D j * lf m c' j * G r c' j with hB
  set δ := -((m c c).val * G c c c) with hδ
  have hδ0 : 0 ≤ δ := by
    have := ((hG c c c).pos h0 h1)
    rw [hδ]; nlinarith
  have hBS : ∀ r c', r < c + 1 → c' < c + 1 → B r c' = S r c' + (if r = c ∧ c' = c then δ else 0) := by
    intro r c' hr hc'
    simp only [hB, hS]
    rw [eG r c' hr hc', sum_range_succ, sum_range_succ]
    have e1 : ∑ j ∈ range c, lf m r j * D j * lf m c' j * G r c' j =
        ∑ j ∈ range c, lf m r j * (m j j).val * lf m c' j * G r c' j := by
      refine sum_congr rfl fun j hj => ?_
      have := mem_range.1 hj
      simp only [hD]; rw [if_neg (by omega)]
    rw [e1]
    simp only [hD, if_true, mul_zero, zero_mul, add_zero]
    by_cases e : r = c ∧ c' = c
    · obtain ⟨rfl, rfl⟩ := e
      simp only [lf, lt_irrefl, if_false, if_true, and_self, hδ]
      ring
    · rw [if_neg e]
      have : lf m r c * lf m c' c = 0 := by
        unfold lf
        by_cases e1 : r = c
        · have e2 : c' ≠ c := fun h => e ⟨e1, h⟩
          rw [if_neg (by omega : ¬ c < c'), if_neg (by omega : ¬ c' = c), mul_zero]
        · rw [if_neg (by omega : ¬ c < r), if_neg (by omega : ¬ r = c), zero_mul]
      linear_combination (-(m c c).val * G r c' c) * this
  obtain ⟨x, x1, x2, x3⟩ := isolate m c
  have hk := killed_bound (c+1) γ hγ0 hγ (lf m) D
    (fun j hj => by
      simp only [hD]
      by_cases e : j = c
      · rw [if_pos e]
      · rw [if_neg e]; exact (hd j (by omega)).le)
    G (fun r c j => (hG r c j).gam h0 h1 hu) B (fun r c _ _ => rfl) x
    (fun j hj hne => by
      apply x3 j
      by_cases e : j = c
      · simp only [hD] at hne; rw [if_pos e] at hne; exact absurd rfl hne
      · omega)
  -- sums over `n` reduce to sums over `c+1`
  have hsub : range (c+1) ⊆ range n := range_subset_range.2 hc
  have red1 : ∑ i ∈ range n, (A i i).val * x i ^ 2 = ∑ i ∈ range (c+1), S i i * x i ^ 2 := by
    rw [← sum_subset hsub (fun i _ hi => by rw [x1 i (by simpa using hi)]; ring)]
    exact sum_congr rfl fun i _ => by rw [Sdiag]
  have red2 : ∑ r ∈ range n, ∑ c' ∈ range n, x r * x c' * (lowerSym A r c').val =
      ∑ r ∈ range (c+1), ∑ c' ∈ range (c+1), x r * x c' * S r c' := by
    rw [← sum_subset hsub (fun i _ hi => by
      rw [x1 i (by simpa using hi)]; exact sum_eq_zero fun _ _ => by ring)]
    refine sum_congr rfl fun r _ => ?_
    rw [← sum_subset hsub (fun i _ hi => by rw [x1 i (by simpa using hi)]; ring)]
  have hp := hpd x
  rw [red1, red2] at hp
  have q1 : ∑ r ∈ range (c+1), ∑ c' ∈ range (c+1), x r * x c' * B r c' =
      (∑ r ∈ range (c+1), ∑ c' ∈ range (c+1), x r * x c' * S r c') + δ := by
    have e : ∀ r ∈ range (c+1), ∑ c' ∈ range (c+1), x r * x c' * B r c' =
        (∑ c' ∈ range (c+1), x r * x c' * S r c') + (if r = c then δ else 0) := by
      intro r hr
      have : ∀ c' ∈ range (c+1), x r * x c' * B r c' = x r * x c' * S r c' +
          (if c' = c then (if r = c then δ else 0) else 0) := by
        intro c' hc'
        rw [hBS r c' (mem_range.1 hr) (mem_range.1 hc')]
        by_cases e1 : r = c
        · by_cases e2 : c' = c
          · rw [if_pos ⟨e1, e2⟩, if_pos e2, if_pos e1, e1, e2, x2]; ring
          · rw [if_neg (fun h => e2 h.2), if_neg e2]; ring
        · rw [if_neg (fun h => e1 h.1), if_neg e1]; split_ifs <;> ring
      rw [sum_congr rfl this, sum_add_distrib, sum_ite_eq' (range (c+1)) c, if_pos (by simp)]
    rw [sum_congr rfl e, sum_add_distrib, sum_ite_eq' (range (c+1)) c, if_pos (by simp)]
  have q2 : ∑ r ∈ range (c+1), B r r * x r ^ 2 = (∑ r ∈ range (c+1), S r r * x r ^ 2) + δ := by
    have e : ∀ r ∈ range (c+1), B r r * x r ^ 2 = S r r * x r ^ 2 + (if r = c then δ else 0) := by
      intro r hr
      rw [hBS r r (mem_range.1 hr) (mem_range.1 hr)]
      by_cases e1 : r = c
      · rw [if_pos ⟨e1, e1⟩, if_pos e1, e1, x2]; ring
      · rw [if_neg (fun h => e1 h.1), if_neg e1]; ring
    rw [sum_congr rfl e, sum_add_distrib, sum_ite_eq' (range (c+1)) c, if_pos (by simp)]
  rw [q1, q2] at hk
  set Q := ∑ r ∈ range (c+1), S r r * x r ^ 2 with hQ
  have hQpos : 0 < Q := by
    have : S c c * x c ^ 2 ≤ Q := single_le_sum (f := fun r => S r r * x r ^ 2)
      (fun i hi => mul_nonneg (by rw [Sdiag]; exact (hpos i (by have := mem_range.1 hi; omega)).le) (sq_nonneg _))
      (by simp)
    rw [x2, Sdiag] at this
    have := hpos c hc
    linarith
  -- `μ ≤ 1`
  have hμ1 : μ ≤ 1 := by
    have h := hpd (fun i => if i = c then 1 else 0)
    have e1 : ∑ i ∈ range n, (A i i).val * (if i = c then (1:ℝ) else 0) ^ 2 = (A c c).val := by
      rw [sum_eq_single c]
      · simp
      · intro b _ hb; simp [hb]
      · intro h; exact absurd (mem_range.2 hc) h
    have e2 : ∑ r ∈ range n, ∑ c' ∈ range n, (if r = c then (1:ℝ) else 0) * (if c' = c then 1 else 0) *
        (lowerSym A r c').val = (A c c).val := by
      rw [sum_eq_single c, sum_eq_single c]
      · simp [lowerSym]
      · intro b _ hb; simp [hb]
      · intro h; exact absurd (mem_range.2 hc) h
      · intro b _ hb; simp [hb]
      · intro h; exact absurd (mem_range.2 hc) h
    rw [e1, e2] at h
    have := hpos c hc
    by_contra hcon
    push Not at hcon
    nlinarith
  have hkn : ((c + 1 : ℕ) : ℝ) * κ ≤ n * κ :=
    mul_le_mul_of_nonneg_right (by exact_mod_cast hc) hκ0
  have f1 : ((c + 1 : ℕ) : ℝ) * κ < μ := lt_of_le_of_lt hkn hμ
  nlinarith [mul_pos (sub_pos.2 f1) hQpos, mul_nonneg (sub_nonneg.2 (le_trans f1.le hμ1)) hδ0]

/-- numerically positive definite matrices are factorised completely, with positive `D` -/
theorem fsuccess (n : ℕ) (A : Mat (Fl ρ)) (hu : ((n + 1 : ℕ) : ℝ) * ρ.u < 1)
    (hγ : gam ρ.u (n+1) < 1) (μ : ℝ) (hμ : n * (gam ρ.u (n+1) / (1 - gam ρ.u (n+1))) < μ)
    (hpos : ∀ i, i < n → 0 < (A i i).val)
    (hpd : ∀ x : Vec ℝ, μ * ∑ i ∈ range n, (A i i).val * x i ^ 2 ≤
      ∑ r ∈ range n, ∑ c ∈ range n, x r * x c * (lowerSym A r c).val) :
    (compute n A).2 = n ∧ ∀ c, c < n → 0 < ((compute n A).1 c c).val := by
  have key : ∀ k, (∀ c r, c ≤ r → r < k → FFact (n+1) A (compute n A).1 r c) → k ≤ n →
      ∀ c, c < k → 0 < ((compute n A).1 c c).val := by
    intro k hf hk c
    induction c using Nat.strong_induction_on with
    | _ c ih =>
      intro hc
      exact fpivot_pos n c (by omega) A _ hu hγ μ hμ hpos hpd
        (fun c' r h1 h2 => hf c' r h1 (by omega)) (fun j hj => ih j hj (by omega))
  rcases fcompute_spec n A with ⟨h1, -, h3⟩ | ⟨h1, -, h3, h4⟩
  · exact ⟨h1, key n h3 le_rfl⟩
  · have := key ((compute n A).2 + 1) (fun c r a b => h4 c r a (by omega)) (by omega) (compute n A).2 (by omega)
    rw [h3] at this
    exact absurd this (lt_irrefl _)

end TooN.Chol
