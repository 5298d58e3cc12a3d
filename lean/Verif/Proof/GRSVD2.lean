import Verif.Proof.GRSVD1
import Verif.Proof.QR
/-! # GR_SVD: reduction to bidiagonal form -/
set_option linter.unusedSectionVars false
set_option linter.unusedVariables false
namespace TooN.GRSVD
open Finset
open scoped Classical
noncomputable section

/-- the reflection vector kept in column `i` of `X`, rows from `lo` -/
def vec (X : Mat ℝ) (lo i : Nat) : Vec ℝ := fun k => if lo ≤ k then X k i else 0

theorem sum_vec (X : Mat ℝ) (lo i n : Nat) (f : Nat → ℝ) :
    ∑ k ∈ range n, vec X lo i k * f k = ∑ k ∈ Ico lo n, X k i * f k := by
  rw [Finset.range_eq_Ico]
  have : Ico lo n = (Ico 0 n).filter (fun k => lo ≤ k) := by
    ext k; simp only [mem_Ico, mem_filter]; omega
  rw [this, Finset.sum_filter]
  refine Finset.sum_congr rfl (fun k _ => ?_)
  unfold vec; split_ifs <;> simp

/-- the reflection described by column `i` of `X` and the number `ρ` -/
def reflM (n : Nat) (X : Mat ℝ) (lo i : Nat) (ρ : ℝ) : Matrix (Fin n) (Fin n) ℝ :=
  if ρ = 0 then 1 else 1 - Matrix.of fun a b : Fin n => vec X lo i a * vec X lo i b / -(ρ * X lo i)

/-- the data describe a reflection -/
def Good (n : Nat) (X : Mat ℝ) (lo i : Nat) (ρ : ℝ) : Prop :=
  ρ = 0 ∨ (ρ ≠ 0 ∧ X lo i ≠ 0 ∧ ∑ k ∈ range n, vec X lo i k * vec X lo i k = 2 * -(ρ * X lo i))

theorem reflM_symm (n : Nat) (X : Mat ℝ) (lo i : Nat) (ρ : ℝ) : (reflM n X lo i ρ).transpose = reflM n X lo i ρ := by
  unfold reflM
  split_ifs
  · simp
  · rw [Matrix.transpose_sub, Matrix.transpose_one]
    congr 1
    ext a b
    simp only [Matrix.transpose_apply, Matrix.of_apply]; ring

theorem reflM_sq (n : Nat) (X : Mat ℝ) (lo i : Nat) (ρ : ℝ) (h : Good n X lo i ρ) :
    reflM n X lo i ρ * reflM n X lo i ρ = 1 := by
  rcases h with h | ⟨h1, h2, h3⟩
  · rw [reflM, if_pos h, Matrix.one_mul]
  · have := QR.house_orth n (vec X lo i) (-(ρ * X lo i)) (neg_ne_zero.mpr (mul_ne_zero h1 h2)) h3
    conv_lhs => rw [← reflM_symm]
    rw [reflM_symm]
    have e : reflM n X lo i ρ = 1 - Matrix.of fun a b : Fin n => vec X lo i a * vec X lo i b / -(ρ * X lo i) := by
      rw [reflM, if_neg h1]
    rw [← e, reflM_symm] at this
    exact this

theorem reflM_mul (n c : Nat) (X : Mat ℝ) (lo i : Nat) (ρ : ℝ) (Y : Mat ℝ) :
    reflM n X lo i ρ * asM n c Y = asM n c (fun a b => if ρ = 0 then Y a b else
      Y a b + (∑ k ∈ Ico lo n, X k i * Y k b) / (ρ * X lo i) * vec X lo i a) := by
  unfold reflM
  by_cases h : ρ = 0
  · simp [h]
  · rw [if_neg h, QR.house_mul]
    rw [asM_eq_iff]
    intro a b _ _
    rw [if_neg h, sum_vec]
    rw [div_neg]; ring

theorem reflM_congr (n : Nat) (X Y : Mat ℝ) (lo i : Nat) (ρ : ℝ) (hlo : ρ ≠ 0 → X lo i = Y lo i)
    (h : ∀ k, lo ≤ k → k < n → X k i = Y k i) : reflM n X lo i ρ = reflM n Y lo i ρ := by
  unfold reflM
  by_cases h0 : ρ = 0
  · simp [h0]
  · rw [if_neg h0, if_neg h0, hlo h0]
    congr 1
    ext a b
    simp only [Matrix.of_apply, vec]
    have key : ∀ c : Fin n, (if lo ≤ (c : Nat) then X c i else 0) = if lo ≤ (c : Nat) then Y c i else 0 := by
      intro c
      by_cases hc : lo ≤ (c : Nat)
      · rw [if_pos hc, if_pos hc, h _ hc c.2]
      · rw [if_neg hc, if_neg hc]
    rw [key a, key b]

theorem Good.congr {n : Nat} {X Y : Mat ℝ} {lo i : Nat} {ρ : ℝ} (hg : Good n X lo i ρ) (hlo : ρ ≠ 0 → Y lo i = X lo i)
    (h : ∀ k, lo ≤ k → k < n → Y k i = X k i) : Good n Y lo i ρ := by
  rcases hg with h0 | ⟨h1, h2, h3⟩
  · exact Or.inl h0
  · refine Or.inr ⟨h1, by rw [hlo h1]; exact h2, ?_⟩
    rw [hlo h1, ← h3]
    refine Finset.sum_congr rfl (fun k hk => ?_)
    have := mem_range.mp hk
    unfold vec
    by_cases hl : lo ≤ k
    · rw [if_pos hl, if_pos hl, h k hl this]
    · rw [if_neg hl, if_neg hl]

theorem reflM_zero (n : Nat) (X : Mat ℝ) (lo i : Nat) : reflM n X lo i (0 * 0) = 1 := by
  rw [reflM, if_pos (by ring)]

/-- a Householder step leaves the data of a reflection -/
theorem House.good {lo hi i jlo jhi : Nat} {X X' : Mat ℝ} {ρ : ℝ} (hlo : lo < hi) (h : House lo hi i jlo jhi X X' ρ) :
    Good hi X' lo i ρ := by
  rcases h with ⟨h, _, _⟩ | ⟨h1, h2, h3, h4⟩
  · exact Or.inl h
  · have hl : X' lo i = X lo i - ρ := by rw [h4, if_pos (by omega), if_pos rfl, if_pos rfl]
    refine Or.inr ⟨h1, by rw [hl]; exact h2, ?_⟩
    rw [sum_vec, hl]
    have e : ∀ k ∈ Ico lo hi, X' k i * vec X' lo i k = X k i * X k i + (if k = lo then ρ * ρ - 2 * ρ * X lo i else 0) := by
      intro k hk
      have := mem_Ico.mp hk
      rw [vec, if_pos this.1, h4, if_pos this, if_pos rfl]
      by_cases q : k = lo
      · rw [if_pos q, if_pos q, q]; ring
      · rw [if_neg q, if_neg q]; ring
    rw [Finset.sum_congr rfl e, Finset.sum_add_distrib, h3, Finset.sum_ite_eq' (Ico lo hi) lo]
    rw [if_pos (mem_Ico.mpr ⟨le_rfl, hlo⟩)]
    ring

/-- the reflection applied to a matrix `Y` -/
theorem House.apply {lo hi i jlo jhi : Nat} {X X' : Mat ℝ} {ρ : ℝ} (hlo : lo < hi) (hij : ¬ (jlo ≤ i ∧ i < jhi))
    (h : House lo hi i jlo jhi X X' ρ) (c : Nat) (Y Z : Mat ℝ)
    (h1 : ∀ a b, a < lo → b < c → Z a b = Y a b)
    (h2 : ∀ b, b < c → (∀ a, lo ≤ a → a < hi → Y a b = 0 ∧ Z a b = 0) ∨
      ((jlo ≤ b ∧ b < jhi) ∧ ∀ a, lo ≤ a → a < hi → Y a b = X a b ∧ Z a b = X' a b) ∨
      (b = i ∧ ∀ a, lo ≤ a → a < hi → Y a b = X a b ∧ Z a b = if a = lo then ρ else 0)) :
    reflM hi X' lo i ρ * asM hi c Y = asM hi c Z := by
  rw [reflM_mul, asM_eq_iff]
  intro a b ha hb
  rcases h with ⟨r0, hz, hX⟩ | ⟨r1, r2, r3, r4⟩
  · rw [if_pos r0]
    by_cases hal : a < lo
    · rw [h1 a b hal hb]
    · push Not at hal
      rcases h2 b hb with g | ⟨_, g⟩ | ⟨g0, g⟩
      · rw [(g a hal ha).1, (g a hal ha).2]
      · rw [(g a hal ha).1, (g a hal ha).2, hX]
      · rw [(g a hal ha).1, (g a hal ha).2, g0, hz a hal ha, r0]; simp
  · have hl : X' lo i = X lo i - ρ := by rw [r4, if_pos (by omega), if_pos rfl, if_pos rfl]
    have hX'i : ∀ k, lo ≤ k → k < hi → X' k i = X k i - (if k = lo then ρ else 0) := by
      intro k k1 k2; rw [r4, if_pos ⟨k1, k2⟩, if_pos rfl]
    rw [if_neg r1, hl]
    by_cases hal : a < lo
    · rw [h1 a b hal hb, vec, if_neg (by omega), mul_zero, add_zero]
    · push Not at hal
      rw [vec, if_pos hal, hX'i a hal ha]
      have es : (∀ k, lo ≤ k → k < hi → Y k b = X k b) →
          ∑ k ∈ Ico lo hi, X' k i * Y k b = ∑ k ∈ Ico lo hi, (X k i - (if k = lo then ρ else 0)) * X k b := fun g =>
        Finset.sum_congr rfl (fun k hk => by
          have := mem_Ico.mp hk
          rw [hX'i k this.1 this.2, g k this.1 this.2])
      rcases h2 b hb with g | ⟨g0, g⟩ | ⟨g0, g⟩
      · rw [(g a hal ha).1, (g a hal ha).2]
        rw [Finset.sum_eq_zero (fun k hk => by
          have := mem_Ico.mp hk
          rw [(g k this.1 this.2).1, mul_zero])]
        simp
      · have r5 := r4 a b
        rw [if_pos ⟨hal, ha⟩, if_neg (show ¬ b = i from fun w => hij (by rw [← w]; exact g0)), if_pos g0] at r5
        rw [es (fun k k1 k2 => (g k k1 k2).1), (g a hal ha).1, (g a hal ha).2, r5]
      · rw [es (fun k k1 k2 => (g k k1 k2).1), (g a hal ha).1, (g a hal ha).2, g0]
        have e2 : ∑ k ∈ Ico lo hi, (X k i - (if k = lo then ρ else 0)) * X k i = - (ρ * (X lo i - ρ)) := by
          have e : ∀ k ∈ Ico lo hi, (X k i - (if k = lo then ρ else 0)) * X k i = X k i * X k i +
              (if k = lo then -(ρ * X lo i) else 0) := by
            intro k hk
            by_cases q : k = lo
            · rw [if_pos q, if_pos q, q]; ring
            · rw [if_neg q, if_neg q]; ring
          rw [Finset.sum_congr rfl e, Finset.sum_add_distrib, r3, Finset.sum_ite_eq' (Ico lo hi) lo,
            if_pos (mem_Ico.mpr ⟨le_rfl, hlo⟩)]
          ring
        rw [e2, neg_div, div_self (mul_ne_zero r1 r2)]
        ring

/-- the product of the first `n` column reflections -/
def prodH (M : Nat) (U : Mat ℝ) (d : Vec ℝ) : Nat → Matrix (Fin M) (Fin M) ℝ
  | 0 => 1
  | i + 1 => prodH M U d i * reflM M U i i (d i)

/-- the product of the first `n` row reflections -/
def prodK (N : Nat) (U : Mat ℝ) (e : Vec ℝ) : Nat → Matrix (Fin N) (Fin N) ℝ
  | 0 => 1
  | i + 1 => prodK N U e i * reflM N U.T (i + 1) i (e (i + 1))

theorem prodH_congr (M : Nat) (U U' : Mat ℝ) (d d' : Vec ℝ) (n : Nat) (hd : ∀ j, j < n → d j = d' j)
    (hU : ∀ j k, j < n → j ≤ k → U k j = U' k j) : prodH M U d n = prodH M U' d' n := by
  induction n with
  | zero => rfl
  | succ n ih =>
    rw [prodH, prodH, ih (fun j hj => hd j (by omega)) (fun j k hj => hU j k (by omega)), hd n (by omega),
      reflM_congr M U U' n n _ (fun _ => hU n n (by omega) le_rfl) (fun k hk _ => hU n k (by omega) hk)]

theorem prodK_congr (N : Nat) (U U' : Mat ℝ) (e e' : Vec ℝ) (n : Nat) (he : ∀ j, j < n → e (j + 1) = e' (j + 1))
    (hU : ∀ j k, j < n → j + 1 ≤ k → U j k = U' j k) : prodK N U e n = prodK N U' e' n := by
  induction n with
  | zero => rfl
  | succ n ih =>
    rw [prodK, prodK, ih (fun j hj => he j (by omega)) (fun j k hj => hU j k (by omega)), he n (by omega),
      reflM_congr N U.T U'.T (n + 1) n _ (fun _ => hU n (n + 1) (by omega) le_rfl) (fun k hk _ => hU n k (by omega) hk)]

/-- the matrix after `i` iterations -/
def work (U : Mat ℝ) (d e : Vec ℝ) (i : Nat) : Mat ℝ := fun a b =>
  if i ≤ a ∧ i ≤ b then U a b else if a = b then d a else if b = a + 1 then e b else 0

/-- the invariant of `Bidiagonalize`; `e` is the array of off-diagonal elements with the pending element put in place -/
structure Inv (M N : Nat) (A : Mat ℝ) (i : Nat) (U : Mat ℝ) (d e : Vec ℝ) : Prop where
  prod : asM M N A = prodH M U d i * asM M N (work U d e i) * (prodK N U e i).transpose
  goodH : ∀ j, j < i → Good M U j j (d j)
  goodK : ∀ j, j < i → Good N U.T (j + 1) j (e (j + 1))
  e0 : e 0 = 0
  dz : ∀ j, j < i → M ≤ j → d j = 0
  ez : ∀ j, j ≤ i → M < j → e j = 0

theorem House.off {lo hi i jlo jhi : Nat} {X X' : Mat ℝ} {ρ : ℝ} (h : House lo hi i jlo jhi X X' ρ) (a b : Nat)
    (hab : ¬ (lo ≤ a ∧ a < hi) ∨ (b ≠ i ∧ ¬ (jlo ≤ b ∧ b < jhi))) : X' a b = X a b := by
  rcases h with ⟨_, _, h⟩ | ⟨_, _, _, h⟩
  · rw [h]
  · rw [h]
    rcases hab with g | ⟨g1, g2⟩
    · rw [if_neg g]
    · rw [if_neg g1, if_neg g2]; split_ifs <;> rfl

/-- the matrix between the two halves of iteration `i` -/
def mid (U : Mat ℝ) (d e : Vec ℝ) (i : Nat) : Mat ℝ := fun a b =>
  if i ≤ a ∧ i + 1 ≤ b then U a b else if a = b then d a else if b = a + 1 then e b else 0

/-- column half -/
theorem left_work (M N i : Nat) (hi : i < M) (U U' : Mat ℝ) (d e : Vec ℝ) (ρ : ℝ) (h : House i M i (i + 1) N U U' ρ) :
    reflM M U' i i ρ * asM M N (work U d e i) = asM M N (mid U' (Vec.set d i ρ) e i) := by
  refine h.apply hi (by omega) N _ _ ?_ ?_
  · intro a b ha hb
    simp only [work, mid]
    rw [if_neg (by omega : ¬ (i ≤ a ∧ i + 1 ≤ b)), if_neg (by omega : ¬ (i ≤ a ∧ i ≤ b)), Vec.set_ne _ _ _ _ (by omega)]
  · intro b hb
    simp only [work, mid]
    rcases Nat.lt_trichotomy b i with hbi | hbi | hbi
    · left
      intro a ha1 ha2
      exact ⟨by rw [if_neg (show ¬ (i ≤ a ∧ i ≤ b) by omega), if_neg (show ¬ a = b by omega), if_neg (show ¬ b = a + 1 by omega)],
        by rw [if_neg (show ¬ (i ≤ a ∧ i + 1 ≤ b) by omega), if_neg (show ¬ a = b by omega), if_neg (show ¬ b = a + 1 by omega)]⟩
    · right; right
      refine ⟨hbi, ?_⟩
      intro a ha1 ha2
      subst hbi
      rw [if_pos (by omega), if_neg (by omega)]
      refine ⟨rfl, ?_⟩
      by_cases q : a = b
      · rw [if_pos q, if_pos q, q, Vec.set_self]
      · rw [if_neg q, if_neg q, if_neg (by omega)]
    · right; left
      refine ⟨by omega, fun a ha1 ha2 => ?_⟩
      rw [if_pos (by omega), if_pos (by omega)]
      exact ⟨rfl, rfl⟩

/-- row half, on the transpose -/
theorem right_work (M N i : Nat) (hi : i + 1 < N) (U U' : Mat ℝ) (d e : Vec ℝ) (ρ : ℝ)
    (h : House (i + 1) N i (i + 1) M U.T U'.T ρ) :
    reflM N U'.T (i + 1) i ρ * asM N M (mid U d e i).T = asM N M (work U' d (Vec.set e (i + 1) ρ) (i + 1)).T := by
  refine h.apply hi (by omega) M _ _ ?_ ?_
  · intro b a hb ha
    simp only [work, mid, Mat.T]
    rw [if_neg (by omega : ¬ (i ≤ a ∧ i + 1 ≤ b)), if_neg (by omega : ¬ (i + 1 ≤ a ∧ i + 1 ≤ b)), Vec.set_ne _ _ _ _ (by omega)]
  · intro a ha
    simp only [work, mid, Mat.T]
    rcases Nat.lt_trichotomy a i with hai | hai | hai
    · left
      intro b hb1 hb2
      exact ⟨by rw [if_neg (show ¬ (i ≤ a ∧ i + 1 ≤ b) by omega), if_neg (show ¬ a = b by omega), if_neg (show ¬ b = a + 1 by omega)],
        by rw [if_neg (show ¬ (i + 1 ≤ a ∧ i + 1 ≤ b) by omega), if_neg (show ¬ a = b by omega), if_neg (show ¬ b = a + 1 by omega)]⟩
    · right; right
      refine ⟨hai, ?_⟩
      intro b hb1 hb2
      subst hai
      rw [if_pos (by omega), if_neg (by omega), if_neg (by omega)]
      refine ⟨rfl, ?_⟩
      by_cases q : b = a + 1
      · rw [if_pos q, if_pos q, q, Vec.set_self]
      · rw [if_neg q, if_neg q]
    · right; left
      refine ⟨by omega, fun b hb1 hb2 => ?_⟩
      rw [if_pos (by omega), if_pos (by omega)]
      exact ⟨rfl, rfl⟩

theorem asM_T (r c : Nat) (X : Mat ℝ) : asM c r X.T = (asM r c X).transpose := rfl

theorem Inv_step (M N : Nat) (A : Mat ℝ) (i : Nat) (hi : i < N) (b : BSt)
    (h : Inv M N A i b.U b.d (Vec.set b.e i (b.scale * b.g))) :
    ∃ b', bidiagStep M N i b = some b' ∧ Inv M N A (i + 1) b'.U b'.d (Vec.set b'.e (i + 1) (b'.scale * b'.g)) := by
  set e := Vec.set b.e i (b.scale * b.g) with he
  obtain ⟨hp, hgH, hgK, he0, hdz, hez⟩ := h
  by_cases hM : i < M
  · obtain ⟨U1, σ, g, hl, hH⟩ := leftHalf_spec M N i hM hi b.U
    have hlw := left_work M N i hM b.U U1 b.d e _ hH
    have gH := hH.good hM
    set ρ := σ * g with hρ
    have offL : ∀ a c, c < i → U1 a c = b.U a c := fun a c hc => hH.off a c (Or.inr ⟨by omega, by omega⟩)
    have offL2 : ∀ a c, a < i → U1 a c = b.U a c := fun a c hc => hH.off a c (Or.inl (by omega))
    -- after the left half
    have hp1 : asM M N A = prodH M U1 (Vec.set b.d i ρ) (i + 1) * asM M N (mid U1 (Vec.set b.d i ρ) e i) *
        (prodK N U1 e i).transpose := by
      rw [hp, prodH, ← hlw, Vec.set_self]
      rw [Matrix.mul_assoc (prodH M U1 (Vec.set b.d i ρ) i), ← Matrix.mul_assoc (reflM M U1 i i ρ), reflM_sq _ _ _ _ _ gH,
        Matrix.one_mul]
      rw [prodH_congr M b.U U1 b.d (Vec.set b.d i ρ) i (fun j hj => (Vec.set_ne _ _ _ _ (by omega)).symm)
        (fun j k hj _ => (offL k j hj).symm)]
      rw [prodK_congr N b.U U1 e e i (fun _ _ => rfl) (fun j k hj _ => (offL2 j k hj).symm)]
    by_cases hN : i + 1 < N
    · obtain ⟨U2, e2, σ', g', hr, hK, hee⟩ := rightHalf_spec M N i hM hN U1 e
      have hrw := right_work M N i hN U1 U2 (Vec.set b.d i ρ) e _ hK
      have gK := hK.good hN
      set τ := σ' * g' with hτ
      refine ⟨{ U := U2, d := Vec.set b.d i ρ, e := e2, scale := σ', g := g',
                anorm := max b.anorm (|Vec.set b.d i ρ i| + |e2 i|) }, ?_, ?_⟩
      · unfold bidiagStep
        rw [hl]
        simp only [Option.bind_some]
        rw [← he, hr]
        simp only [Option.bind_some]
        rw [← hρ]
      have offR : ∀ a c, c ≤ i → U2 a c = U1 a c := fun a c hc => hK.off c a (Or.inl (by omega))
      have offR2 : ∀ a c, a < i → U2 a c = U1 a c := fun a c hc => hK.off c a (Or.inr ⟨by omega, by omega⟩)
      have hej : ∀ j, j ≤ i → Vec.set e2 (i + 1) τ j = e j := by
        intro j hj; rw [Vec.set_ne _ _ _ _ (by omega), hee j hj]
      have hwork : asM M N (work U2 (Vec.set b.d i ρ) (Vec.set e2 (i + 1) τ) (i + 1)) =
          asM M N (work U2 (Vec.set b.d i ρ) (Vec.set e (i + 1) τ) (i + 1)) := by
        rw [asM_eq_iff]
        intro a c ha hc
        simp only [work]
        by_cases q1 : i + 1 ≤ a ∧ i + 1 ≤ c
        · rw [if_pos q1, if_pos q1]
        · rw [if_neg q1, if_neg q1]
          by_cases q2 : a = c
          · rw [if_pos q2, if_pos q2]
          · rw [if_neg q2, if_neg q2]
            by_cases q3 : c = a + 1
            · rw [if_pos q3, if_pos q3]
              by_cases q4 : c = i + 1
              · rw [q4, Vec.set_self, Vec.set_self]
              · rw [Vec.set_ne _ _ _ _ q4, Vec.set_ne _ _ _ _ q4, hee c (by omega)]
            · rw [if_neg q3, if_neg q3]
      constructor
      · rw [hp1, hwork]
        show _ = prodH M U2 (Vec.set b.d i ρ) (i + 1) * _ * (prodK N U2 (Vec.set e2 (i + 1) τ) (i + 1)).transpose
        have t := congrArg Matrix.transpose hrw
        rw [Matrix.transpose_mul, asM_T, asM_T, Matrix.transpose_transpose, Matrix.transpose_transpose, reflM_symm] at t
        rw [prodK, Matrix.transpose_mul, reflM_symm, Vec.set_self, ← t]
        rw [Matrix.mul_assoc, Matrix.mul_assoc, Matrix.mul_assoc, ← Matrix.mul_assoc (reflM N U2.T (i + 1) i τ)
          (reflM N U2.T (i + 1) i τ), reflM_sq _ _ _ _ _ gK, Matrix.one_mul]
        rw [prodH_congr M U1 U2 (Vec.set b.d i ρ) (Vec.set b.d i ρ) (i + 1) (fun _ _ => rfl)
          (fun j k hj _ => (offR k j (by omega)).symm)]
        rw [prodK_congr N U1 U2 e (Vec.set e2 (i + 1) τ) i (fun j hj => (hej (j + 1) (by omega)).symm)
          (fun j k hj _ => (offR2 j k hj).symm)]
      · intro j hj
        show Good M U2 j j (Vec.set b.d i ρ j)
        by_cases q : j = i
        · subst q
          rw [Vec.set_self]
          exact gH.congr (fun _ => offR j j le_rfl) (fun k _ _ => offR k j le_rfl)
        · rw [Vec.set_ne _ _ _ _ q]
          exact (hgH j (by omega)).congr (fun _ => by rw [offR j j (by omega), offL j j (by omega)])
            (fun k _ _ => by rw [offR k j (by omega), offL k j (by omega)])
      · intro j hj
        show Good N U2.T (j + 1) j (Vec.set e2 (i + 1) τ (j + 1))
        by_cases q : j = i
        · subst q
          rw [Vec.set_self]
          exact gK
        · rw [hej (j + 1) (by omega)]
          exact (hgK j (by omega)).congr
            (fun _ => by show U2 j (j + 1) = b.U j (j + 1); rw [offR2 j _ (by omega), offL2 j _ (by omega)])
            (fun k _ _ => by show U2 j k = b.U j k; rw [offR2 j _ (by omega), offL2 j _ (by omega)])
      · show Vec.set e2 (i + 1) τ 0 = 0
        rw [hej 0 (by omega)]; exact he0
      · intro j hj hMj
        show Vec.set b.d i ρ j = 0
        rw [Vec.set_ne _ _ _ _ (by omega)]; exact hdz j (by omega) hMj
      · intro j hj hMj
        exact absurd hMj (by omega)
    · have hr : rightHalf M N i U1 e = some (U1, e, 0, 0) := by
        unfold rightHalf; rw [if_neg (by omega)]
      refine ⟨{ U := U1, d := Vec.set b.d i ρ, e := e, scale := 0, g := 0,
                anorm := max b.anorm (|Vec.set b.d i ρ i| + |e i|) }, ?_, ?_⟩
      · unfold bidiagStep
        rw [hl]
        simp only [Option.bind_some]
        rw [← he, hr]
        simp only [Option.bind_some]
        rw [← hρ]
      have hej : ∀ j, j ≤ i → Vec.set e (i + 1) (0 * 0 : ℝ) j = e j := by
        intro j hj; rw [Vec.set_ne _ _ _ _ (by omega)]
      constructor
      · rw [hp1]
        show _ = prodH M U1 (Vec.set b.d i ρ) (i + 1) * _ * (prodK N U1 (Vec.set e (i + 1) (0 * 0)) (i + 1)).transpose
        have hw : asM M N (mid U1 (Vec.set b.d i ρ) e i) =
            asM M N (work U1 (Vec.set b.d i ρ) (Vec.set e (i + 1) (0 * 0)) (i + 1)) := by
          rw [asM_eq_iff]
          intro a c ha hc
          simp only [mid, work]
          rw [if_neg (show ¬ (i ≤ a ∧ i + 1 ≤ c) by omega), if_neg (show ¬ (i + 1 ≤ a ∧ i + 1 ≤ c) by omega), hej c (by omega)]
        rw [hw, prodK, show Vec.set e (i + 1) (0 * 0 : ℝ) (i + 1) = 0 * 0 from Vec.set_self _ _ _]
        rw [reflM_zero, Matrix.mul_one]
        rw [prodK_congr N U1 U1 (Vec.set e (i + 1) (0 * 0)) e i (fun j hj => hej (j + 1) (by omega)) (fun _ _ _ _ => rfl)]
      · intro j hj
        show Good M U1 j j (Vec.set b.d i ρ j)
        by_cases q : j = i
        · subst q
          rw [Vec.set_self]
          exact gH
        · rw [Vec.set_ne _ _ _ _ q]
          exact (hgH j (by omega)).congr (fun _ => offL j j (by omega)) (fun k _ _ => offL k j (by omega))
      · intro j hj
        show Good N U1.T (j + 1) j (Vec.set e (i + 1) (0 * 0) (j + 1))
        by_cases q : j = i
        · subst q
          rw [Vec.set_self]
          exact Or.inl (by ring)
        · rw [hej (j + 1) (by omega)]
          exact (hgK j (by omega)).congr (fun _ => offL2 j _ (by omega)) (fun k _ _ => offL2 j k (by omega))
      · show Vec.set e (i + 1) (0 * 0) 0 = 0
        rw [hej 0 (by omega)]; exact he0
      · intro j hj hMj
        show Vec.set b.d i ρ j = 0
        rw [Vec.set_ne _ _ _ _ (by omega)]; exact hdz j (by omega) hMj
      · intro j hj hMj
        exact absurd hMj (by omega)
  · have hl : leftHalf M N i b.U = some (b.U, 0, 0) := by unfold leftHalf; rw [if_neg hM]
    have hr : rightHalf M N i b.U e = some (b.U, e, 0, 0) := by
      unfold rightHalf; rw [if_neg (by omega)]
    refine ⟨{ U := b.U, d := Vec.set b.d i (0 * 0), e := e, scale := 0, g := 0,
              anorm := max b.anorm (|Vec.set b.d i (0 * 0) i| + |e i|) }, ?_, ?_⟩
    · unfold bidiagStep
      rw [hl]
      simp only [Option.bind_some]
      rw [← he, hr]
      simp only [Option.bind_some]
    have hej : ∀ j, j ≤ i → Vec.set e (i + 1) (0 * 0 : ℝ) j = e j := by
      intro j hj; rw [Vec.set_ne _ _ _ _ (by omega)]
    constructor
    · show _ = prodH M b.U (Vec.set b.d i (0 * 0)) (i + 1) * asM M N (work b.U (Vec.set b.d i (0 * 0)) (Vec.set e (i + 1) (0 * 0)) (i + 1)) *
        (prodK N b.U (Vec.set e (i + 1) (0 * 0)) (i + 1)).transpose
      have hw : asM M N (work b.U b.d e i) =
          asM M N (work b.U (Vec.set b.d i (0 * 0)) (Vec.set e (i + 1) (0 * 0)) (i + 1)) := by
        rw [asM_eq_iff]
        intro a c ha hc
        simp only [work]
        rw [if_neg (show ¬ (i ≤ a ∧ i ≤ c) by omega), if_neg (show ¬ (i + 1 ≤ a ∧ i + 1 ≤ c) by omega),
          Vec.set_ne _ _ _ _ (by omega : a ≠ i)]
        by_cases q2 : a = c
        · rw [if_pos q2, if_pos q2]
        · rw [if_neg q2, if_neg q2]
          by_cases q3 : c = a + 1
          · rw [if_pos q3, if_pos q3, hej c (by omega)]
          · rw [if_neg q3, if_neg q3]
      rw [hp, hw, prodK, prodH, Vec.set_self, Vec.set_self]
      rw [reflM_zero, Matrix.mul_one, reflM_zero, Matrix.mul_one]
      rw [prodK_congr N b.U b.U (Vec.set e (i + 1) (0 * 0)) e i (fun j hj => hej (j + 1) (by omega)) (fun _ _ _ _ => rfl)]
      rw [prodH_congr M b.U b.U (Vec.set b.d i (0 * 0)) b.d i (fun j hj => Vec.set_ne _ _ _ _ (by omega)) (fun _ _ _ _ => rfl)]
    · intro j hj
      show Good M b.U j j (Vec.set b.d i (0 * 0) j)
      by_cases q : j = i
      · subst q
        rw [Vec.set_self]
        exact Or.inl (by ring)
      · rw [Vec.set_ne _ _ _ _ q]
        exact hgH j (by omega)
    · intro j hj
      show Good N b.U.T (j + 1) j (Vec.set e (i + 1) (0 * 0) (j + 1))
      by_cases q : j = i
      · subst q
        rw [Vec.set_self]
        exact Or.inl (by ring)
      · rw [hej (j + 1) (by omega)]
        exact hgK j (by omega)
    · show Vec.set e (i + 1) (0 * 0) 0 = 0
      rw [hej 0 (by omega)]; exact he0
    · intro j hj hMj
      show Vec.set b.d i (0 * 0) j = 0
      by_cases q : j = i
      · rw [q, Vec.set_self]; ring
      · rw [Vec.set_ne _ _ _ _ q]; exact hdz j (by omega) hMj
    · intro j hj hMj
      show Vec.set e (i + 1) (0 * 0) j = 0
      by_cases q : j = i + 1
      · rw [q, Vec.set_self]; ring
      · rw [hej j (by omega)]; exact hez j (by omega) hMj

/-- an upper bidiagonal matrix -/
def bidiag (d e : Vec ℝ) : Mat ℝ := fun a b => if a = b then d a else if b = a + 1 then e b else 0

theorem bidiagonalize_spec (M N : Nat) (hN : 1 ≤ N) (A : Mat ℝ) (d0 e0 : Vec ℝ) :
    ∃ b, bidiagonalize M N A d0 e0 = some b ∧
      asM M N A = prodH M b.U b.d N * asM M N (bidiag b.d b.e) * (prodK N b.U b.e (N - 1)).transpose ∧
      (∀ j, j < N → Good M b.U j j (b.d j)) ∧ (∀ j, j + 1 < N → Good N b.U.T (j + 1) j (b.e (j + 1))) ∧
      b.e 0 = 0 ∧ (∀ j, j < N → M ≤ j → b.d j = 0) ∧ (∀ j, j < N → M < j → b.e j = 0) := by
  unfold bidiagonalize
  obtain ⟨b, hb, hI⟩ := forNM_total (fun i (b : BSt) => Inv M N A i b.U b.d (Vec.set b.e i (b.scale * b.g)) ∧
      (i = N → b.scale * b.g = 0)) N (bidiagStep M N)
    { U := A, d := d0, e := e0, g := 0, scale := 0, anorm := 0 }
    ⟨{ prod := by
        show _ = 1 * asM M N (work A d0 _ 0) * Matrix.transpose 1
        rw [Matrix.one_mul, Matrix.transpose_one, Matrix.mul_one]
        rw [asM_eq_iff]; intro a b _ _; simp [work]
       goodH := fun j hj => by omega
       goodK := fun j hj => by omega
       e0 := by simp
       dz := fun j hj => by omega
       ez := fun j hj hMj => by omega }, fun h => by omega⟩ (by
      intro i t hi ⟨hI, _⟩
      obtain ⟨b', hb', hI'⟩ := Inv_step M N A i hi t hI
      refine ⟨b', hb', hI', ?_⟩
      intro hiN
      unfold bidiagStep at hb'
      cases hl : leftHalf M N i t.U with
      | none => rw [hl] at hb'; simp at hb'
      | some lh =>
        rw [hl] at hb'
        have hr : rightHalf M N i lh.1 (Vec.set t.e i (t.scale * t.g)) = some (lh.1, Vec.set t.e i (t.scale * t.g), 0, 0) := by
          unfold rightHalf; rw [if_neg (by omega)]
        simp only [Option.bind_some, hr, Option.some.injEq] at hb'
        rw [← hb']; ring)
  refine ⟨b, hb, ?_⟩
  obtain ⟨⟨hp, hgH, hgK, he0, hdz, hez⟩, hlast⟩ := hI
  have hset : ∀ j, j < N → Vec.set b.e N (b.scale * b.g) j = b.e j := fun j hj => Vec.set_ne _ _ _ _ (by omega)
  refine ⟨?_, hgH, ?_, ?_, hdz, ?_⟩
  · rw [hp]
    have hw : asM M N (work b.U b.d (Vec.set b.e N (b.scale * b.g)) N) = asM M N (bidiag b.d b.e) := by
      rw [asM_eq_iff]
      intro a c ha hc
      simp only [work, bidiag]
      rw [if_neg (by omega), hset c hc]
    rw [hw]
    have : N = (N - 1) + 1 := by omega
    have hk : prodK N b.U (Vec.set b.e N (b.scale * b.g)) N = prodK N b.U b.e (N - 1) := by
      conv_lhs => rw [show prodK N b.U (Vec.set b.e N (b.scale * b.g)) N =
        prodK N b.U (Vec.set b.e N (b.scale * b.g)) ((N - 1) + 1) by rw [← this]]
      rw [prodK, ← this, Vec.set_self, reflM, if_pos (hlast rfl), Matrix.mul_one]
      exact prodK_congr N b.U b.U _ _ (N - 1) (fun j hj => hset (j + 1) (by omega)) (fun _ _ _ _ => rfl)
    rw [hk]
  · intro j hj
    have := hgK j (by omega)
    rwa [hset (j + 1) hj] at this
  · rw [← hset 0 (by omega)]; exact he0
  · intro j hj hMj
    rw [← hset j hj]; exact hez j (by omega) hMj

end
end TooN.GRSVD
