import Verif.Proof.GRSVD6
/-! # GR_SVD: `Diagonalize` -/
set_option linter.unusedSectionVars false
set_option linter.unusedVariables false
namespace TooN.GRSVD
open Finset
open scoped Classical
noncomputable section
section
variable {M N : Nat} {wU wV : Bool}

theorem form_dropE (l k : Nat) (hk : k < N) (hl : l ≤ k) (d e : Vec ℝ) (δ : ℝ) (h0 : 0 ≤ δ) (h : l = 0 ∨ |e l| ≤ δ)
    (u v : Vec ℝ) (hu : sq N u ≤ 1) (hv : sq N v ≤ 1) : |form N k d e u v - formL N l k d e u v| ≤ δ := by
  by_cases hl0 : l = 0
  · rw [show form N k d e u v - formL N l k d e u v = 0 from ?_, abs_zero]
    · exact h0
    rw [sub_eq_zero]
    refine Finset.sum_congr rfl (fun p _ => ?_)
    simp only [row, rowL, hl0, ne_eq, Nat.add_eq_zero_iff, one_ne_zero, and_false, not_false_eq_true, and_true]
  · refine drop_err N (l - 1) l (by omega) (by omega) (e l) δ (h.resolve_left hl0) u v _ _ hu hv ?_ ?_
    · intro p hp
      simp only [row, rowL, show ¬ p + 1 = l by omega, ne_eq, not_false_eq_true, and_true]
    · simp only [row, rowL]
      rw [if_pos (by omega), if_neg (by omega), show l - 1 + 1 = l by omega]; ring

theorem form_dropD (l1 k : Nat) (hk : k < N) (hl : l1 < k) (d e : Vec ℝ) (δ : ℝ) (h : |d l1| ≤ δ)
    (u v : Vec ℝ) (hu : sq N u ≤ 1) (hv : sq N v ≤ 1) : |form N k d e u v - formD N l1 k d e u v| ≤ δ := by
  refine drop_err N l1 l1 (by omega) (by omega) (d l1) δ h u v _ _ hu hv ?_ ?_
  · intro p hp; simp only [row, rowD, if_neg hp]
  · simp only [row, rowD, if_true]; ring

theorem formL_self (k : Nat) (d e u v : Vec ℝ) : formL N k k d e u v = form N (k - 1) d e u v := by
  refine Finset.sum_congr rfl (fun p _ => ?_)
  simp only [row, rowL]
  by_cases h : p + 1 ≤ k ∧ p + 1 ≠ k
  · rw [if_pos h, if_pos (by omega)]
  · rw [if_neg h, if_neg (by omega)]

/-- the possible results of a call of `Diagonalize_SubLoop` -/
def SubOK (M N : Nat) (wU wV : Bool) (ε : ℝ) (k : Nat) (st : St) (r : Option (Bool × ℝ × St)) : Prop :=
  ∃ b z st', r = some (b, z, st') ∧ st'.e 0 = 0 ∧ (∀ j, k < j → st'.d j = st.d j) ∧
    ((b = true ∧ st'.nError = st.nError ∧ z = st'.d k ∧
        Trans M N wU wV st.U st.V st'.U st'.V (form N k st.d st.e) (form N (k - 1) st'.d st'.e) (3 * ε)) ∨
     (b = true ∧ st'.nError = k ∧ 1 ≤ k ∧ Trans M N wU wV st.U st.V st'.U st'.V (form N k st.d st.e) (form N k st'.d st'.e) (3 * ε)) ∨
     (b = false ∧ st'.nError = st.nError ∧ st.nIter ≠ 30 ∧ st'.nIter = st.nIter + 1 ∧
        Trans M N wU wV st.U st.V st'.U st'.V (form N k st.d st.e) (form N k st'.d st'.e) (3 * ε)))

theorem line565_ok (ε : ℝ) (hε : 0 ≤ ε) (l k : Nat) (hl : l ≤ k) (hk : k < N) (st st1 : St) (hd : ∀ j, l ≤ j → j < k → st1.d j ≠ 0)
    (he : ∀ j, l < j → j ≤ k → st1.e j ≠ 0) (η δ : ℝ) (hδ0 : 0 ≤ δ) (hsum : η + δ ≤ 3 * ε) (hδ : l = 0 ∨ |st1.e l| ≤ δ)
    (hT : Trans M N wU wV st.U st.V st1.U st1.V (form N k st.d st.e) (form N k st1.d st1.e) η)
    (hfr : ∀ j, k < j → st1.d j = st.d j) (h0 : st1.e 0 = 0) (hE : st1.nError = st.nError) (hI : st1.nIter = st.nIter) :
    SubOK M N wU wV ε k st (line565 M N wU wV l k st1) := by
  have hT2 : Trans M N wU wV st.U st.V st1.U st1.V (form N k st.d st.e) (formL N l k st1.d st1.e) (3 * ε) :=
    (hT.trans (Trans.refl st1.U st1.V (fun u v hu hv => form_dropE l k hk hl _ _ δ hδ0 hδ u v hu hv))).mono hsum
  rcases line565_spec (M := M) (N := N) (wU := wU) (wV := wV) l k hl hk st1 hd he with ⟨h1, h2⟩ | ⟨h1, h2, h3⟩ | ⟨h1, h2, z, st', h3, h4, h5, h6, h7, h8, h9⟩
  · refine ⟨_, _, _, h2, h0, hfr, Or.inl ⟨rfl, hE, rfl, ?_⟩⟩
    subst h1
    have : formL N l l st1.d st1.e = form N (l - 1) st1.d st1.e := by funext u v; exact formL_self l _ _ u v
    rw [← this]
    exact hT2
  · refine ⟨_, _, _, h3, h0, hfr, Or.inr (Or.inl ⟨rfl, rfl, by omega, hT.mono (by linarith)⟩)⟩
  · refine ⟨_, _, _, h3, ?_, fun j hj => ((h7 j hj).1).trans (hfr j hj), Or.inr (Or.inr ⟨rfl, by rw [h5, hE], by rw [← hI]; exact h2, by rw [h4, hI], ?_⟩)⟩
    · by_cases hl0 : l = 0
      · rw [← hl0]; exact h9
      · rw [(h8 0 (by omega)).2]; exact h0
    · simpa using hT2.trans h6

theorem searchFrom_spec (negl : ℝ → Prop) (ε : ℝ) (hn0 : negl 0) (hε : ∀ x, negl x → x ≤ ε) (k : Nat) (hk : k < N) (st : St)
    (h0 : st.e 0 = 0) : ∀ n, 1 ≤ n → n ≤ k + 1 → (∀ j, n ≤ j → j ≤ k → st.e j ≠ 0 ∧ st.d (j - 1) ≠ 0) →
      SubOK M N wU wV ε k st (searchFrom M N wU wV negl k n st) := by
  have hε0 : 0 ≤ ε := hε 0 hn0
  intro n
  induction n with
  | zero => intro h; omega
  | succ l ih =>
    intro _ hl hnz
    rw [searchFrom]
    have hd : ∀ j, l ≤ j → j < k → st.d j ≠ 0 := fun j h1 h2 => by simpa using (hnz (j + 1) (by omega) (by omega)).2
    have he : ∀ j, l < j → j ≤ k → st.e j ≠ 0 := fun j h1 h2 => (hnz j (by omega) h2).1
    by_cases h1 : negl |st.e l|
    · rw [if_pos h1]
      exact line565_ok ε hε0 l k (by omega) hk st st hd he 0 ε hε0 (by linarith) (Or.inr (hε _ h1))
        (Trans.refl _ _ (fun u v _ _ => by simp)) (fun _ _ => rfl) h0 rfl rfl
    rw [if_neg h1]
    have hl0 : l ≠ 0 := by
      intro h; rw [h, h0, abs_zero] at h1; exact h1 hn0
    have hel : st.e l ≠ 0 := by
      intro h; rw [h, abs_zero] at h1; exact h1 hn0
    rw [if_neg hl0]
    by_cases h2 : negl |st.d (l - 1)|
    · rw [if_pos h2]
      obtain ⟨st1, b1, b2, b3, b4, b5, b6, b7, b8⟩ := cancelLoop_spec (M := M) (N := N) (wU := wU) (wV := wV) negl ε hn0 hε (l - 1) k hk (k + 1 - l) l 0 1 st
        (by omega) (by omega) (fun _ => rfl) (by omega) (fun j h3 h4 => hd j (by omega) h4) (fun j h3 h4 => he j (by omega) h4)
      have hl1 : l - 1 + 1 = l := by omega
      rw [hl1] at b3 b7 b8
      have hel' := b3 (Or.inl (by omega))
      rw [b1]
      refine line565_ok ε hε0 l k (by omega) hk st st1 b7 b8 (3 * ε) 0 le_rfl (by linarith) (Or.inr (by rw [hel']; simp)) ?_
        (fun j hj => (b6 j (Or.inr hj)).1) (by rw [(b6 0 (by omega)).2]; exact h0) b4 b5
      have hd1 : |st1.d (l - 1)| ≤ ε := by rw [(b6 (l - 1) (by omega)).1]; exact hε _ h2
      have t1 : Trans M N wU wV st.U st.V st.U st.V (form N k st.d st.e) (cF N (l - 1) k l 0 1 st.d st.e) ε := by
        refine Trans.refl _ _ (fun u v hu hv => ?_)
        have := form_dropD (l - 1) k hk (by omega) st.d st.e ε (hε _ h2) u v hu hv
        have e : formD N (l - 1) k st.d st.e u v = cF N (l - 1) k l 0 1 st.d st.e u v := by
          refine Finset.sum_congr rfl (fun p _ => ?_)
          congr 1
          simp only [rowD, cRow]
          by_cases e : p = l - 1
          · simp only [e, hl1, if_true, true_and, show l ≤ k by omega]; ring
          · simp only [e, if_false, false_and, show ¬ p + 1 = l by omega, add_zero]
        rw [← e]; exact this
      have t3 : Trans M N wU wV st1.U st1.V st1.U st1.V (formD N (l - 1) k st1.d st1.e) (form N k st1.d st1.e) ε := by
        refine Trans.refl _ _ (fun u v hu hv => ?_)
        rw [abs_sub_comm]
        exact form_dropD (l - 1) k hk (by omega) st1.d st1.e ε hd1 u v hu hv
      exact ((t1.trans b2).trans t3).mono (by linarith)
    · rw [if_neg h2]
      have hdl : st.d (l - 1) ≠ 0 := by
        intro h; rw [h, abs_zero] at h2; exact h2 hn0
      refine ih (by omega) (by omega) (fun j h3 h4 => ?_)
      by_cases e : j = l
      · rw [e]; exact ⟨hel, hdl⟩
      · exact hnz j (by omega) h4

theorem iterateK_spec (negl : ℝ → Prop) (ε : ℝ) (hn0 : negl 0) (hε : ∀ x, negl x → x ≤ ε) (k : Nat) (hk : k < N) :
    ∀ m fuel (st : St), st.nIter + m = 30 → m + 1 ≤ fuel → st.nError = 0 → st.e 0 = 0 →
      ∃ z st', iterateK M N wU wV negl k fuel st = some (z, st') ∧ st'.e 0 = 0 ∧ (∀ j, k < j → st'.d j = st.d j) ∧
        ((st'.nError = 0 ∧ z = st'.d k ∧
            Trans M N wU wV st.U st.V st'.U st'.V (form N k st.d st.e) (form N (k - 1) st'.d st'.e) (3 * (m + 1) * ε)) ∨
         (st'.nError = k ∧ 1 ≤ k ∧ Trans M N wU wV st.U st.V st'.U st'.V (form N k st.d st.e) (form N k st'.d st'.e) (3 * (m + 1) * ε))) := by
  have hε0 : 0 ≤ ε := hε 0 hn0
  intro m
  induction m with
  | zero =>
    intro fuel st h1 h2 h3 h4
    obtain ⟨fuel, rfl⟩ : ∃ f, fuel = f + 1 := ⟨fuel - 1, by omega⟩
    rw [iterateK]
    obtain ⟨b, z, st', c1, c2, c3, c4⟩ := searchFrom_spec (M := M) (N := N) (wU := wU) (wV := wV) negl ε hn0 hε k hk st h4 (k + 1) (by omega) le_rfl (fun j h5 h6 => by omega)
    rw [c1]
    rcases c4 with ⟨rfl, d1, d2, d3⟩ | ⟨rfl, d1, d2, d3⟩ | ⟨rfl, d1, d2, d3, d4⟩
    · exact ⟨_, _, rfl, c2, c3, Or.inl ⟨by rw [d1, h3], d2, d3.mono (by norm_num)⟩⟩
    · exact ⟨_, _, rfl, c2, c3, Or.inr ⟨d1, d2, d3.mono (by norm_num)⟩⟩
    · omega
  | succ m ih =>
    intro fuel st h1 h2 h3 h4
    obtain ⟨fuel, rfl⟩ : ∃ f, fuel = f + 1 := ⟨fuel - 1, by omega⟩
    rw [iterateK]
    obtain ⟨b, z, st', c1, c2, c3, c4⟩ := searchFrom_spec (M := M) (N := N) (wU := wU) (wV := wV) negl ε hn0 hε k hk st h4 (k + 1) (by omega) le_rfl (fun j h5 h6 => by omega)
    have hm : 3 * ε ≤ 3 * ((m + 1 : ℕ) + 1) * ε := by
      push_cast
      nlinarith [mul_nonneg (Nat.cast_nonneg (α := ℝ) m) hε0]
    rw [c1]
    rcases c4 with ⟨rfl, d1, d2, d3⟩ | ⟨rfl, d1, d2, d3⟩ | ⟨rfl, d1, d2, d3, d4⟩
    · exact ⟨_, _, rfl, c2, c3, Or.inl ⟨by rw [d1, h3], d2, d3.mono hm⟩⟩
    · exact ⟨_, _, rfl, c2, c3, Or.inr ⟨d1, d2, d3.mono hm⟩⟩
    · obtain ⟨z, st'', e1, e2, e3, e4⟩ := ih fuel st' (by omega) (by omega) (by rw [d1, h3]) c2
      refine ⟨z, st'', e1, e2, fun j hj => (e3 j hj).trans (c3 j hj), ?_⟩
      have hs : 3 * ε + 3 * (m + 1) * ε ≤ 3 * ((m + 1 : ℕ) + 1) * ε := by push_cast; linarith
      rcases e4 with ⟨f1, f2, f3⟩ | ⟨f1, f2, f3⟩
      · exact Or.inl ⟨f1, f2, (d4.trans f3).mono hs⟩
      · exact Or.inr ⟨f1, f2, (d4.trans f3).mono hs⟩

theorem diagonalize_spec (negl : ℝ → Prop) (ε : ℝ) (hn0 : negl 0) (hε : ∀ x, negl x → x ≤ ε) (fuel : Nat) (hf : 31 ≤ fuel) :
    ∀ n (st : St), n ≤ N → st.nError = 0 → st.e 0 = 0 →
      ∃ st', diagonalize M N wU wV negl fuel n st = some st' ∧ (∀ j, n ≤ j → st'.d j = st.d j) ∧
        st'.nError < max n 1 ∧ (∀ j, st'.nError < j → j < n → 0 ≤ st'.d j) ∧ (st'.nError = 0 → 0 < n → 0 ≤ st'.d 0) ∧
        Trans M N wU wV st.U st.V st'.U st'.V (form N (n - 1) st.d st.e) (form N st'.nError st'.d st'.e) (93 * n * ε) := by
  have hε0 : 0 ≤ ε := hε 0 hn0
  intro n
  induction n with
  | zero =>
    intro st _ h1 h2
    exact ⟨st, rfl, fun _ _ => rfl, by rw [h1]; simp, fun j _ h => by omega, fun _ h => by omega,
      by rw [h1]; exact Trans.refl _ _ (fun u v _ _ => by simp)⟩
  | succ k ih =>
    intro st hk h1 h2
    rw [diagonalize]
    obtain ⟨z, st1, e1, e2, e3, e4⟩ := iterateK_spec (M := M) (N := N) (wU := wU) (wV := wV) negl ε hn0 hε k (by omega) 30 fuel { st with nIter := 0 } rfl (by omega) h1 h2
    rw [e1]
    simp only [Option.bind_some]
    rcases e4 with ⟨f1, f2, f3⟩ | ⟨f1, f2, f3⟩
    · rw [if_neg (by simpa using f1)]
      -- the sign change
      have hsg : ∃ st2, (if z < 0 then
          { st1 with d := Vec.set st1.d k (-z), V := if wV = true then forN N (fun j V => Mat.set V j k (-V j k)) st1.V else st1.V }
          else st1) = st2 ∧ st2.e 0 = 0 ∧ st2.nError = 0 ∧ (∀ j, j ≠ k → st2.d j = st1.d j) ∧ 0 ≤ st2.d k ∧
          Trans M N wU wV st1.U st1.V st2.U st2.V (form N (k - 1) st1.d st1.e) (form N (k - 1) st2.d st2.e) 0 := by
        by_cases hz : z < 0
        · rw [if_pos hz]
          refine ⟨_, rfl, e2, f1, fun j hj => Vec.set_ne _ _ _ _ hj, by simp only; rw [Vec.set_self]; linarith, ?_⟩
          refine ⟨_, _, .id, .neg k (by omega) .id, fun a _ => by cases wU <;> rfl, fun b hb => ?_, ?_⟩
          · cases wV
            · rfl
            · exact negCol_row N k st1.V b hb
          · intro u v _ _
            apply le_of_eq
            rw [abs_eq_zero, sub_eq_zero]
            refine Finset.sum_congr rfl (fun p _ => ?_)
            congr 1
            simp only [row, negRow]
            by_cases hp : p = k
            · rw [hp, Vec.set_self, if_pos rfl, if_neg (by omega), f2]; ring
            · rw [Vec.set_ne _ _ _ _ hp, if_neg hp]
              by_cases hp2 : p + 1 ≤ k - 1
              · rw [if_pos hp2, if_neg (by omega)]
              · rw [if_neg hp2, zero_mul, zero_mul]
        · rw [if_neg hz]
          exact ⟨_, rfl, e2, f1, fun _ _ => rfl, by rw [← f2]; linarith, Trans.refl _ _ (fun u v _ _ => by simp)⟩
      obtain ⟨st2, g1, g2, g3, g4, g5, g6⟩ := hsg
      rw [g1]
      obtain ⟨st', i1, i2, i3, i4, i5, i6⟩ := ih st2 (by omega) g3 g2
      refine ⟨st', i1, ?_, by omega, ?_, ?_, ?_⟩
      · intro j hj
        rw [i2 j (by omega), g4 j (by omega), e3 j (by omega)]
      · intro j h3 h4
        by_cases hj : j = k
        · rw [hj, i2 k le_rfl]; exact g5
        · exact i4 j h3 (by omega)
      · intro h3 _
        by_cases hj : k = 0
        · have := i2 k le_rfl
          subst hj
          rw [this]; exact g5
        · exact i5 h3 (by omega)
      · refine ((f3.trans g6).trans i6).mono ?_
        push_cast
        linarith
    · rw [if_pos (by omega)]
      refine ⟨st1, rfl, fun j hj => e3 j (by omega), by omega, fun j h3 h4 => by omega, fun h => by omega, ?_⟩
      rw [f1]
      refine f3.mono ?_
      push_cast
      nlinarith [mul_nonneg (Nat.cast_nonneg (α := ℝ) k) hε0]
end
end
end TooN.GRSVD
