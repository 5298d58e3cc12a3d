import Verif.Proof.GRSVD2
/-! # GR_SVD: accumulation of the transformations -/
set_option linter.unusedSectionVars false
set_option linter.unusedVariables false
namespace TooN.GRSVD
open Finset
open scoped Classical
noncomputable section

theorem updColsG (lo hi jlo jhi i : Nat) (hi' : ¬ (jlo ≤ i ∧ i < jhi)) (S : Mat ℝ → Nat → ℝ) (c : Nat → ℝ) (X : Mat ℝ)
    (hS : ∀ Y j, jlo ≤ j → j < jhi → (∀ a, Y a i = X a i) → (∀ a, Y a j = X a j) → S Y j = c j) (a b : Nat) :
    forRange jlo jhi (fun j Y => forRange lo hi (fun k Z => Mat.set Z k j (Z k j + S Y j * Z k i)) Y) X a b =
    if (jlo ≤ b ∧ b < jhi) ∧ lo ≤ a ∧ a < hi then X a b + c b * X a i else X a b := by
  by_cases h : jlo ≤ jhi
  · have := forRange_inv (fun n (Y : Mat ℝ) => ∀ a b, Y a b = if (jlo ≤ b ∧ b < n) ∧ lo ≤ a ∧ a < hi then
        X a b + c b * X a i else X a b) jlo jhi h
      (fun j Y => forRange lo hi (fun k Z => Mat.set Z k j (Z k j + S Y j * Z k i)) Y) X (fun a b => by rw [if_neg (by omega)]) ?_
    · exact this a b
    intro n Y h1 h2 ih a b
    have hYi : ∀ a, Y a i = X a i := by intro a; rw [ih, if_neg (by omega)]
    have hYn : ∀ a, Y a n = X a n := by intro a; rw [ih, if_neg (by omega)]
    beta_reduce
    rw [hS Y n h1 h2 hYi hYn]
    rw [colWrite lo hi n _ (fun k => X k n + c n * X k i) Y ?_ a b]
    · by_cases e : b = n ∧ lo ≤ a ∧ a < hi
      · rw [if_pos e, if_pos (by omega), e.1]
      · rw [if_neg e, ih]
        by_cases g : (jlo ≤ b ∧ b < n) ∧ lo ≤ a ∧ a < hi
        · rw [if_pos g, if_pos (by omega)]
        · rw [if_neg g, if_neg (by omega)]
    · intro k Z h3 h4 hZ
      rw [hZ k n (by omega), hZ k i (by omega), hYi, hYn]
  · rw [forRange_empty _ _ (by omega), if_neg (by omega)]

/-- the part of an accumulated matrix that has been computed, completed by the identity -/
def view (X : Mat ℝ) (i : Nat) : Mat ℝ := fun a b => if i ≤ a ∧ i ≤ b then X a b else if a = b then 1 else 0

theorem identRowCol (l N i : Nat) (hl : i + 1 = l) (V : Mat ℝ) (a b : Nat) :
    forRange l N (fun j V => Mat.set (Mat.set V j i 0) i j 0) V a b =
      if (b = i ∧ l ≤ a ∧ a < N) ∨ (a = i ∧ l ≤ b ∧ b < N) then 0 else V a b := by
  by_cases h : l ≤ N
  · have := forRange_inv (fun n (Y : Mat ℝ) => ∀ a b, Y a b = if (b = i ∧ l ≤ a ∧ a < n) ∨ (a = i ∧ l ≤ b ∧ b < n) then 0 else V a b)
      l N h (fun j V => Mat.set (Mat.set V j i 0) i j 0) V (fun a b => by rw [if_neg (by omega)]) ?_
    · exact this a b
    intro n Y h1 h2 ih a b
    by_cases e1 : a = i ∧ b = n
    · rw [e1.1, e1.2, Mat.set_self, if_pos (by omega)]
    · rw [Mat.set_ne _ _ _ _ _ _ e1]
      by_cases e2 : a = n ∧ b = i
      · rw [e2.1, e2.2, Mat.set_self, if_pos (by omega)]
      · rw [Mat.set_ne _ _ _ _ _ _ e2, ih]
        by_cases g : (b = i ∧ l ≤ a ∧ a < n) ∨ (a = i ∧ l ≤ b ∧ b < n)
        · rw [if_pos g, if_pos (by omega)]
        · rw [if_neg g, if_neg (by omega)]
  · rw [forRange_empty _ _ (by omega), if_neg (by omega)]

theorem rhsStep_spec (N : Nat) (U : Mat ℝ) (e : Vec ℝ) (i : Nat) (hi : i + 1 < N) (V : Mat ℝ)
    (hg : Good N U.T (i + 1) i (e (i + 1))) :
    ∃ V', rhsStep N U e i V = some V' ∧
      reflM N U.T (i + 1) i (e (i + 1)) * asM N N (view V (i + 1)) = asM N N (view V' i) := by
  unfold rhsStep
  simp only
  by_cases h0 : e (i + 1) = 0
  · rw [if_neg (by simpa using h0)]
    refine ⟨_, rfl, ?_⟩
    rw [reflM, if_pos h0, Matrix.one_mul, asM_eq_iff]
    intro a b ha hb
    simp only [view]
    by_cases q : i + 1 ≤ a ∧ i + 1 ≤ b
    · rw [if_pos q, if_pos (by omega), Mat.set_ne _ _ _ _ _ _ (by omega), identRowCol _ _ _ rfl, if_neg (by omega)]
    · rw [if_neg q]
      by_cases q2 : i ≤ a ∧ i ≤ b
      · rw [if_pos q2]
        by_cases q3 : a = i ∧ b = i
        · rw [q3.1, q3.2, Mat.set_self, if_pos rfl]
        · rw [Mat.set_ne _ _ _ _ _ _ q3, identRowCol _ _ _ rfl,
            if_pos (show (b = i ∧ i + 1 ≤ a ∧ a < N) ∨ (a = i ∧ i + 1 ≤ b ∧ b < N) by omega), if_neg (show ¬ a = b by omega)]
      · rw [if_neg q2]
  · rcases hg with hg | ⟨_, hU, _⟩
    · exact absurd hg h0
    have hU : U i (i + 1) ≠ 0 := hU
    rw [if_pos h0, if_neg hU]
    refine ⟨_, rfl, ?_⟩
    have hW : ∀ a b, forRange (i + 1) N (fun j V => Mat.set V j i (U i j / U i (i + 1) / e (i + 1))) V a b =
        if b = i ∧ i + 1 ≤ a ∧ a < N then U i a / U i (i + 1) / e (i + 1) else V a b :=
      fun a b => colWrite (i + 1) N i (fun k _ => U i k / U i (i + 1) / e (i + 1)) (fun k => U i k / U i (i + 1) / e (i + 1)) V
        (fun _ _ _ _ _ => rfl) a b
    generalize forRange (i + 1) N (fun j V => Mat.set V j i (U i j / U i (i + 1) / e (i + 1))) V = W at *
    have hup := updColsG (i + 1) N (i + 1) N i (by omega)
      (fun Y j => forRange (i + 1) N (fun k s => s + U i k * Y k j) 0) (fun j => ∑ k ∈ Ico (i + 1) N, U i k * W k j) W
      (fun Y j _ _ _ hj => by rw [forRange_sum]; exact Finset.sum_congr rfl (fun k _ => by rw [hj]))
    rw [reflM_mul, asM_eq_iff]
    intro a b ha hb
    rw [if_neg h0]
    have hT : ∀ k, U.T k i = U i k := fun _ => rfl
    by_cases q : i + 1 ≤ b
    · have hs : ∑ k ∈ Ico (i + 1) N, U.T k i * view V (i + 1) k b = ∑ k ∈ Ico (i + 1) N, U i k * W k b :=
        Finset.sum_congr rfl (fun k hk => by
          have := mem_Ico.mp hk
          rw [hT, view, if_pos (by omega), hW, if_neg (by omega)])
      rw [hs]
      by_cases qa : i + 1 ≤ a
      · simp only [view, vec]
        rw [if_pos ⟨qa, q⟩, if_pos qa, if_pos (by omega), Mat.set_ne _ _ _ _ _ _ (by omega), identRowCol _ _ _ rfl,
          if_neg (by omega), hup, if_pos (by omega), hW a b, if_neg (by omega), hW a i, if_pos (by omega)]
        rw [hT, hT]
        field_simp
      · simp only [view, vec]
        rw [if_neg (show ¬ (i + 1 ≤ a ∧ i + 1 ≤ b) by omega), if_neg qa, mul_zero, add_zero, if_neg (show ¬ a = b by omega)]
        by_cases qi : i ≤ a
        · have : a = i := by omega
          subst this
          rw [if_pos (by omega), Mat.set_ne _ _ _ _ _ _ (by omega), identRowCol _ _ _ rfl, if_pos (by omega)]
        · rw [if_neg (by omega)]
    · have hs : ∑ k ∈ Ico (i + 1) N, U.T k i * view V (i + 1) k b = 0 :=
        Finset.sum_eq_zero (fun k hk => by
          have := mem_Ico.mp hk
          rw [view, if_neg (by omega), if_neg (by omega), mul_zero])
      rw [hs]
      simp only [view]
      rw [if_neg (show ¬ (i + 1 ≤ a ∧ i + 1 ≤ b) by omega)]
      simp only [zero_div, zero_mul, add_zero]
      by_cases q2 : i ≤ a ∧ i ≤ b
      · rw [if_pos q2]
        have hb' : b = i := by omega
        subst hb'
        by_cases q3 : a = b
        · rw [q3, Mat.set_self, if_pos rfl]
        · rw [if_neg q3, Mat.set_ne _ _ _ _ _ _ (by omega), identRowCol _ _ _ rfl, if_pos (by omega)]
      · rw [if_neg q2]

theorem prodK_orth (N : Nat) (U : Mat ℝ) (e : Vec ℝ) (n : Nat) (h : ∀ j, j < n → Good N U.T (j + 1) j (e (j + 1))) :
    (prodK N U e n).transpose * prodK N U e n = 1 := by
  induction n with
  | zero => simp [prodK]
  | succ n ih =>
    rw [prodK, Matrix.transpose_mul, Matrix.mul_assoc, ← Matrix.mul_assoc (prodK N U e n).transpose,
      ih (fun j hj => h j (by omega)), Matrix.one_mul, reflM_symm, reflM_sq _ _ _ _ _ (h n (by omega))]

theorem prodH_orth (M : Nat) (U : Mat ℝ) (d : Vec ℝ) (n : Nat) (h : ∀ j, j < n → Good M U j j (d j)) :
    (prodH M U d n).transpose * prodH M U d n = 1 := by
  induction n with
  | zero => simp [prodH]
  | succ n ih =>
    rw [prodH, Matrix.transpose_mul, Matrix.mul_assoc, ← Matrix.mul_assoc (prodH M U d n).transpose,
      ih (fun j hj => h j (by omega)), Matrix.one_mul, reflM_symm, reflM_sq _ _ _ _ _ (h n (by omega))]

theorem accumulateRHS_spec (N : Nat) (hN : 1 ≤ N) (U : Mat ℝ) (e : Vec ℝ) (V0 : Mat ℝ)
    (hg : ∀ j, j + 1 < N → Good N U.T (j + 1) j (e (j + 1))) :
    ∃ V, accumulateRHS N U e V0 = some V ∧ asM N N V = prodK N U e (N - 1) := by
  unfold accumulateRHS
  obtain ⟨V, h1, h2⟩ := forDownM_total (fun i V => prodK N U e i * asM N N (view V i) = prodK N U e (N - 1)) (N - 1)
    (rhsStep N U e) (Mat.set V0 (N - 1) (N - 1) 1) (by
      have : asM N N (view (Mat.set V0 (N - 1) (N - 1) 1) (N - 1)) = 1 := by
        ext a b
        rw [asM_apply, Matrix.one_apply, view]
        by_cases q : N - 1 ≤ (a : Nat) ∧ N - 1 ≤ (b : Nat)
        · have ha : (a : Nat) = N - 1 := by omega
          have hb : (b : Nat) = N - 1 := by omega
          rw [if_pos q, ha, hb, Mat.set_self, if_pos (Fin.ext (by omega))]
        · rw [if_neg q]; simp only [Fin.ext_iff]
      rw [this, Matrix.mul_one]) (by
      intro i V hi ih
      obtain ⟨V', e1, e2⟩ := rhsStep_spec N U e i (by omega) V (hg i (by omega))
      refine ⟨V', e1, ?_⟩
      rw [← e2, ← Matrix.mul_assoc]
      exact ih)
  refine ⟨V, h1, ?_⟩
  rw [prodK, Matrix.one_mul] at h2
  rw [← h2, asM_eq_iff]
  intro a b _ _
  simp [view]

theorem lhsStep_spec (M N : Nat) (d : Vec ℝ) (i : Nat) (hiM : i < M) (hiN : i < N) (X U : Mat ℝ)
    (hX : ∀ k, U k i = X k i) (hg : Good M X i i (d i)) :
    ∃ U', lhsStep M N d i U = some U' ∧ (∀ k j, j < i → U' k j = U k j) ∧
      reflM M X i i (d i) * asM M N (view U (i + 1)) = asM M N (view U' i) := by
  -- the zeroed row
  have hrow : ∀ a b, (if i ≠ N - 1 then forRange (i + 1) N (fun j U => Mat.set U i j 0) U else U) a b =
      if a = i ∧ i + 1 ≤ b ∧ b < N then 0 else U a b := by
    intro a b
    by_cases hN : i = N - 1
    · rw [if_neg (by simpa using hN), if_neg (by omega)]
    · rw [if_pos hN]
      have := forRange_inv (fun n (Y : Mat ℝ) => ∀ a b, Y a b = if a = i ∧ i + 1 ≤ b ∧ b < n then 0 else U a b)
        (i + 1) N (by omega) (fun j U => Mat.set U i j 0) U (fun a b => by rw [if_neg (by omega)]) ?_
      · exact this a b
      intro n Y h1 h2 ih a b
      by_cases q : a = i ∧ b = n
      · rw [q.1, q.2, Mat.set_self, if_pos (by omega)]
      · rw [Mat.set_ne _ _ _ _ _ _ q, ih]
        by_cases g : a = i ∧ i + 1 ≤ b ∧ b < n
        · rw [if_pos g, if_pos (by omega)]
        · rw [if_neg g, if_neg (by omega)]
  unfold lhsStep
  simp only
  generalize (if i ≠ N - 1 then forRange (i + 1) N (fun j U => Mat.set U i j 0) U else U) = R at *
  have hRi : ∀ k, R k i = X k i := by intro k; rw [hrow, if_neg (by omega), hX]
  by_cases h0 : d i = 0
  · rw [if_pos h0]
    have hc : ∀ a b, forRange i M (fun j U => Mat.set U j i 0) R a b = if b = i ∧ i ≤ a ∧ a < M then 0 else R a b :=
      fun a b => colWrite i M i (fun _ _ => 0) (fun _ => 0) R (fun _ _ _ _ _ => rfl) a b
    refine ⟨_, rfl, ?_, ?_⟩
    · intro k j hj
      rw [Mat.set_ne _ _ _ _ _ _ (by omega), hc, if_neg (by omega), hrow, if_neg (by omega)]
    rw [reflM, if_pos h0, Matrix.one_mul, asM_eq_iff]
    intro a b ha hb
    simp only [view]
    by_cases q : i + 1 ≤ a ∧ i + 1 ≤ b
    · rw [if_pos q, if_pos (by omega), Mat.set_ne _ _ _ _ _ _ (by omega), hc, if_neg (by omega), hrow, if_neg (by omega)]
    · rw [if_neg q]
      by_cases q2 : i ≤ a ∧ i ≤ b
      · rw [if_pos q2]
        by_cases q3 : a = i ∧ b = i
        · rw [q3.1, q3.2, Mat.set_self, if_pos rfl, hc, if_pos (by omega), zero_add]
        · rw [if_neg (show ¬ a = b by omega), Mat.set_ne _ _ _ _ _ _ q3, hc]
          by_cases q4 : b = i
          · rw [if_pos (by omega)]
          · rw [if_neg (by omega), hrow, if_pos (by omega)]
      · rw [if_neg q2]
  · rcases hg with hg | ⟨_, hU, _⟩
    · exact absurd hg h0
    rw [if_neg h0]
    -- the update of the columns, in both cases
    have hupd : ∃ W, (if i ≠ min M N - 1 then if R i i = 0 then none else
          some (forRange (i + 1) N (fun j U =>
            forRange i M (fun k U_1 => Mat.set U_1 k j (U_1 k j + (forRange (i + 1) M (fun k s => s + U k i * U k j) 0 / U i i) *
              (1 / d i) * U_1 k i)) U) R)
        else some R) = some W ∧ ∀ a b, a < M → b < N → W a b = if (i + 1 ≤ b) ∧ i ≤ a then
          R a b + (∑ k ∈ Ico (i + 1) M, X k i * R k b) / X i i * (1 / d i) * X a i else R a b := by
      by_cases hm : i = min M N - 1
      · rw [if_neg (by simpa using hm)]
        refine ⟨R, rfl, ?_⟩
        intro a b ha hb
        by_cases q : (i + 1 ≤ b) ∧ i ≤ a
        · rw [if_pos q]
          have : Ico (i + 1) M = ∅ := by
            apply Finset.Ico_eq_empty
            omega
          rw [this]; simp
        · rw [if_neg q]
      · rw [if_pos hm, if_neg (by rw [hRi]; exact hU)]
        refine ⟨_, rfl, ?_⟩
        intro a b ha hb
        rw [updColsG i M (i + 1) N i (by omega)
          (fun Y j => forRange (i + 1) M (fun k s => s + Y k i * Y k j) 0 / Y i i * (1 / d i))
          (fun j => (∑ k ∈ Ico (i + 1) M, X k i * R k j) / X i i * (1 / d i)) R (fun Y j _ _ h1 h2 => by
            rw [forRange_sum, h1 i, hRi]
            rw [Finset.sum_congr rfl (fun k _ => by rw [h1 k, h2 k, hRi k] : ∀ k ∈ Ico (i + 1) M, Y k i * Y k j = X k i * R k j)])]
        by_cases q : (i + 1 ≤ b) ∧ i ≤ a
        · rw [if_pos (by omega), if_pos q, hRi]
        · rw [if_neg (by omega), if_neg q]
    have hupdO : ∀ W, (if i ≠ min M N - 1 then if R i i = 0 then none else
          some (forRange (i + 1) N (fun j U =>
            forRange i M (fun k U_1 => Mat.set U_1 k j (U_1 k j + (forRange (i + 1) M (fun k s => s + U k i * U k j) 0 / U i i) *
              (1 / d i) * U_1 k i)) U) R)
        else some R) = some W → ∀ k j, j ≤ i → W k j = R k j := by
      intro W hW k j hj
      by_cases hm : i = min M N - 1
      · rw [if_neg (by simpa using hm)] at hW
        rw [Option.some.inj hW]
      · rw [if_pos hm, if_neg (by rw [hRi]; exact hU)] at hW
        rw [← Option.some.inj hW]
        rw [updColsG i M (i + 1) N i (by omega)
          (fun Y j => forRange (i + 1) M (fun k s => s + Y k i * Y k j) 0 / Y i i * (1 / d i))
          (fun j => (∑ k ∈ Ico (i + 1) M, X k i * R k j) / X i i * (1 / d i)) R (fun Y j _ _ h1 h2 => by
            rw [forRange_sum, h1 i, hRi]
            rw [Finset.sum_congr rfl (fun k _ => by rw [h1 k, h2 k, hRi k] : ∀ k ∈ Ico (i + 1) M, Y k i * Y k j = X k i * R k j)])]
        rw [if_neg (by omega)]
    obtain ⟨W, hW1, hW2⟩ := hupd
    have hW3 := hupdO W hW1
    rw [hW1]
    refine ⟨_, rfl, ?_, ?_⟩
    · intro k j hj
      rw [Mat.set_ne _ _ _ _ _ _ (by omega), colWrite i M i (fun k Y => Y k i * (1 / d i)) (fun k => W k i * (1 / d i)) W
        (fun k Y _ _ h => by rw [h k i (by omega)]), if_neg (by omega), hW3 k j (by omega), hrow, if_neg (by omega)]
    have hfin : ∀ a b, a < M → b < N → Mat.set (forRange i M (fun j U => Mat.set U j i (U j i * (1 / d i))) W) i i
        ((forRange i M (fun j U => Mat.set U j i (U j i * (1 / d i))) W) i i + 1) a b =
        if b = i then (if i ≤ a then X a i * (1 / d i) + (if a = i then 1 else 0) else W a b) else W a b := by
      intro a b ha hb
      have hc : ∀ a b, (forRange i M (fun j U => Mat.set U j i (U j i * (1 / d i))) W) a b =
          if b = i ∧ i ≤ a ∧ a < M then W a i * (1 / d i) else W a b :=
        fun a b => colWrite i M i (fun k Y => Y k i * (1 / d i)) (fun k => W k i * (1 / d i)) W
          (fun k Y _ _ h => by rw [h k i (by omega)]) a b
      have hWi : ∀ k, W k i = X k i := fun k => by rw [hW3 k i le_rfl, hRi]
      by_cases q : a = i ∧ b = i
      · rw [q.1, q.2, Mat.set_self, if_pos rfl, if_pos le_rfl, if_pos rfl, hc, if_pos (by omega), hWi]
      · rw [Mat.set_ne _ _ _ _ _ _ q, hc]
        by_cases q1 : b = i
        · rw [if_pos q1]
          by_cases q2 : i ≤ a
          · rw [if_pos ⟨q1, q2, ha⟩, if_pos q2, if_neg (by omega), hWi, add_zero]
          · rw [if_neg (by omega), if_neg q2]
        · rw [if_neg (by omega), if_neg q1]
    rw [reflM_mul, asM_eq_iff]
    intro a b ha hb
    rw [if_neg h0]
    rcases Nat.lt_trichotomy b i with hb1 | hb1 | hb1
    · have hs : ∑ k ∈ Ico i M, X k i * view U (i + 1) k b = 0 :=
        Finset.sum_eq_zero (fun k hk => by
          have := mem_Ico.mp hk
          rw [view, if_neg (by omega), if_neg (by omega), mul_zero])
      rw [hs]
      simp only [view]
      rw [if_neg (show ¬ (i + 1 ≤ a ∧ i + 1 ≤ b) by omega), if_neg (show ¬ (i ≤ a ∧ i ≤ b) by omega)]
      simp
    · subst hb1
      have hs : ∑ k ∈ Ico b M, X k b * view U (b + 1) k b = X b b := by
        rw [Finset.sum_eq_single b]
        · rw [view, if_neg (by omega), if_pos rfl, mul_one]
        · intro k _ hk
          rw [view, if_neg (by omega), if_neg hk, mul_zero]
        · intro hk; exact absurd (mem_Ico.mpr ⟨le_rfl, hiM⟩) hk
      rw [hs]
      simp only [view, vec]
      rw [if_neg (show ¬ (b + 1 ≤ a ∧ b + 1 ≤ b) by omega)]
      by_cases q : b ≤ a
      · rw [if_pos q, if_pos (show b ≤ a ∧ b ≤ b from ⟨q, le_rfl⟩), hfin a b ha hb, if_pos (show b = b from rfl), if_pos q]
        field_simp
        try ring
      · rw [if_neg q, if_neg (show ¬ (b ≤ a ∧ b ≤ b) by omega), if_neg (show ¬ a = b by omega)]; simp
    · have hs : ∑ k ∈ Ico i M, X k i * view U (i + 1) k b = ∑ k ∈ Ico (i + 1) M, X k i * R k b := by
        rw [Finset.sum_eq_sum_Ico_succ_bot hiM]
        rw [view, if_neg (by omega), if_neg (by omega), mul_zero, zero_add]
        exact Finset.sum_congr rfl (fun k hk => by
          have := mem_Ico.mp hk
          rw [view, if_pos (by omega), hrow, if_neg (by omega)])
      rw [hs]
      simp only [view, vec]
      by_cases q : i ≤ a
      · rw [if_pos q, if_pos (show i ≤ a ∧ i ≤ b by omega), hfin a b ha hb, if_neg (show ¬ b = i by omega), hW2 a b ha hb,
          if_pos (show i + 1 ≤ b ∧ i ≤ a by omega), hrow a b]
        by_cases q2 : a = i
        · rw [if_neg (show ¬ (i + 1 ≤ a ∧ i + 1 ≤ b) by omega), if_neg (show ¬ a = b by omega), if_pos (by omega)]
          field_simp
        · rw [if_pos (show i + 1 ≤ a ∧ i + 1 ≤ b by omega), if_neg (by omega)]
          field_simp
      · rw [if_neg q, if_neg (show ¬ (i + 1 ≤ a ∧ i + 1 ≤ b) by omega), if_neg (show ¬ (i ≤ a ∧ i ≤ b) by omega)]; simp

/-- the first columns of the identity -/
def idMat : Mat ℝ := fun a b => if a = b then 1 else 0

theorem accumulateLHS_spec (M N : Nat) (d : Vec ℝ) (X : Mat ℝ) (hg : ∀ j, j < N → Good M X j j (d j))
    (hdz : ∀ j, j < N → M ≤ j → d j = 0) :
    ∃ U, accumulateLHS M N d X = some U ∧ asM M N U = prodH M X d N * asM M N idMat := by
  have hm : prodH M X d (min M N) = prodH M X d N := by
    have : ∀ n, n + min M N ≤ N → prodH M X d (min M N + n) = prodH M X d (min M N) := by
      intro n hn
      induction n with
      | zero => rfl
      | succ n ih =>
        rw [← Nat.add_assoc, prodH, ih (by omega), hdz (min M N + n) (by omega) (by omega), reflM, if_pos rfl, Matrix.mul_one]
    have h := this (N - min M N) (by omega)
    rw [show min M N + (N - min M N) = N by omega] at h
    exact h.symm
  unfold accumulateLHS
  obtain ⟨U, h1, h2⟩ := forDownM_total (fun i U => (∀ k j, j < i → U k j = X k j) ∧
      prodH M X d i * asM M N (view U i) = prodH M X d N * asM M N idMat) (min M N)
    (lhsStep M N d) X (by
      refine ⟨fun _ _ _ => rfl, ?_⟩
      rw [hm]
      congr 1
      rw [asM_eq_iff]
      intro a b ha hb
      rw [view, if_neg (by omega), idMat]) (by
      intro i U hi ⟨ih1, ih2⟩
      obtain ⟨U', e1, e2, e3⟩ := lhsStep_spec M N d i (by omega) (by omega) X U (fun k => ih1 k i (by omega)) (hg i (by omega))
      refine ⟨U', e1, fun k j hj => by rw [e2 k j hj, ih1 k j (by omega)], ?_⟩
      rw [← e3, ← Matrix.mul_assoc]
      exact ih2)
  refine ⟨U, h1, ?_⟩
  obtain ⟨_, h2⟩ := h2
  rw [prodH, Matrix.one_mul] at h2
  rw [← h2, asM_eq_iff]
  intro a b _ _
  simp [view]

theorem idMat_mul (M N : Nat) (B : Mat ℝ) (hB : ∀ a b, N ≤ a → b < N → B a b = 0) :
    asM M N idMat * asM N N B = asM M N B := by
  ext a b
  rw [Matrix.mul_apply, asM_apply]
  simp only [asM_apply, idMat]
  by_cases h : (a : Nat) < N
  · rw [Finset.sum_eq_single (⟨a, h⟩ : Fin N)]
    · simp
    · intro c _ hc
      rw [if_neg (fun q => hc (Fin.ext q.symm)), zero_mul]
    · intro hc; exact absurd (Finset.mem_univ _) hc
  · rw [hB a b (by omega) b.2]
    refine Finset.sum_eq_zero (fun c _ => ?_)
    rw [if_neg (by omega), zero_mul]

/-- the state in which `Diagonalize` starts: `A = U B Vᵀ` with `V` orthogonal and `U` the first columns of an orthogonal matrix -/
theorem start_spec (M N : Nat) (hN : 1 ≤ N) (A : Mat ℝ) (d0 e0 : Vec ℝ) (V0 : Mat ℝ) :
    ∃ b V U, bidiagonalize M N A d0 e0 = some b ∧ accumulateRHS N b.U b.e V0 = some V ∧ accumulateLHS M N b.d b.U = some U ∧
      asM M N A = asM M N U * asM N N (bidiag b.d b.e) * (asM N N V).transpose ∧
      (asM N N V).transpose * asM N N V = 1 ∧
      (∃ P : Matrix (Fin M) (Fin M) ℝ, P.transpose * P = 1 ∧ asM M N U = P * asM M N idMat) ∧
      b.e 0 = 0 ∧ (∀ j, j < N → M ≤ j → b.d j = 0) ∧ (∀ j, j < N → M < j → b.e j = 0) := by
  obtain ⟨b, hb, hp, hgH, hgK, he0, hdz, hez⟩ := bidiagonalize_spec M N hN A d0 e0
  obtain ⟨V, hV, hVe⟩ := accumulateRHS_spec N hN b.U b.e V0 hgK
  obtain ⟨U, hU, hUe⟩ := accumulateLHS_spec M N b.d b.U hgH hdz
  refine ⟨b, V, U, hb, hV, hU, ?_, ?_, ⟨_, prodH_orth M b.U b.d N hgH, hUe⟩, he0, hdz, hez⟩
  · rw [hVe, hUe, Matrix.mul_assoc (prodH M b.U b.d N), idMat_mul]
    · exact hp
    · intro a c ha hc
      rw [bidiag, if_neg (by omega), if_neg (by omega)]
  · rw [hVe]; exact prodK_orth N b.U b.e (N - 1) (fun j hj => hgK j (by omega))

end
end TooN.GRSVD
