import Verif.Proof.GRSVD9
import Mathlib.Tactic.LinearCombination
/-!
# GR_SVD: with at most two columns the iteration converges in exact arithmetic (at most two sweeps)
-/
set_option linter.unusedSectionVars false
set_option linter.unusedVariables false
namespace TooN.GRSVD
open scoped Classical
noncomputable section
variable {M N : Nat} {wU wV : Bool}

/-- one search for `k = 1` when the block is already split, or can be split by cancellation -/
theorem search_split (negl : ℝ → Prop) (hn : ∀ x, negl x ↔ x = 0) (st : St) (h : st.e 1 = 0 ∨ st.d 0 = 0) :
    ∃ z st', searchFrom M N wU wV negl 1 2 st = some (true, z, st') ∧ st'.nError = st.nError ∧ st'.e 0 = st.e 0 := by
  have h565 : ∀ s : St, line565 M N wU wV 1 1 s = some (true, s.d 1, s) := fun s => by rw [line565]; exact if_pos rfl
  rw [searchFrom]
  by_cases h1 : st.e 1 = 0
  · rw [if_pos ((hn _).mpr (by rw [h1, abs_zero])), h565]
    exact ⟨_, _, rfl, rfl, rfl⟩
  · rw [if_neg (fun hh => h1 (abs_eq_zero.mp ((hn _).mp hh))), if_neg (by norm_num)]
    have hd : st.d 0 = 0 := h.resolve_left h1
    rw [if_pos ((hn _).mpr (by rw [show (1 - 1 : Nat) = 0 from rfl, hd, abs_zero]))]
    rw [show 1 + 1 - 1 = 0 + 1 from rfl, cancelLoop]
    have hne : ¬ negl |1 * st.e 1| := fun hh => h1 (by simpa using abs_eq_zero.mp ((hn _).mp hh))
    simp only [if_neg hne]
    have hh : Real.sqrt (1 * st.e 1 * (1 * st.e 1) + st.d 1 * st.d 1) ≠ 0 := by
      have : 0 < 1 * st.e 1 * (1 * st.e 1) + st.d 1 * st.d 1 := by
        have := mul_self_pos.mpr h1
        nlinarith [mul_self_nonneg (st.d 1)]
      exact (Real.sqrt_pos.mpr this).ne'
    simp only [if_neg hh, cancelLoop, Option.bind_some, h565]
    refine ⟨_, _, rfl, rfl, ?_⟩
    dsimp only
    rw [Vec.set_ne _ _ _ _ (show (0 : Nat) ≠ 1 by norm_num)]

theorem tan_root (x g y : ℝ) (hx : x ≠ 0) (hg : g ≠ 0) (f0 q f : ℝ) (hf0 : f0 = (x * x - y * y - g * g) / (2 * g * x)) (hq : q ≠ 0)
    (hqq : q * q = 2 * f0 * q + 1) (hf : f = ((x - y) * (x + y) + g * (x / q - g)) / x) : f = g * q := by
  have e1 : x * x - y * y - g * g = f0 * (2 * g * x) := by rw [hf0]; field_simp
  have e2 : x * f = (x - y) * (x + y) + g * (x / q - g) := by rw [hf]; field_simp
  have e3 : x / q * q = x := by field_simp
  have h : x * q * (f - g * q) = 0 := by
    linear_combination q * e2 + g * e3 + q * e1 - x * g * hqq * 1
  have := (mul_eq_zero.mp h).resolve_left (mul_ne_zero hx hq)
  linarith

/-- one sweep of a 2x2 block: either the superdiagonal entry or the first diagonal entry becomes zero -/
theorem sweep_two (st : St) (h0 : st.e 0 = 0) (h1 : st.e 1 ≠ 0) (hd : st.d 0 ≠ 0) (hi : st.nIter ≠ 30) :
    ∃ z st', line565 M N wU wV 0 1 st = some (false, z, st') ∧ st'.nError = st.nError ∧ st'.e 0 = 0 ∧ (st'.e 1 = 0 ∨ st'.d 0 = 0) := by
  rw [line565]
  simp only [show ¬ ((0 : Nat) = 1) by omega, if_false, if_neg hi, show (1 - 1 : Nat) = 0 from rfl]
  have hg : 2 * st.e 1 * st.d 0 ≠ 0 := mul_ne_zero (mul_ne_zero two_ne_zero h1) hd
  simp only [if_neg hg]
  generalize hf0 : ((st.d 0 - st.d 1) * (st.d 0 + st.d 1) + (st.e 0 - st.e 1) * (st.e 0 + st.e 1)) / (2 * st.e 1 * st.d 0) = f0
  have hpos : (0:ℝ) ≤ f0 * f0 + 1 := by nlinarith [mul_self_nonneg f0]
  have hS := Real.mul_self_sqrt hpos
  have hSp : 0 < Real.sqrt (f0 * f0 + 1) := Real.sqrt_pos.mpr (by nlinarith [mul_self_nonneg f0])
  generalize Real.sqrt (f0 * f0 + 1) = S at hS hSp ⊢
  obtain ⟨q, hq, hq0, hqq⟩ : ∃ q, f0 + (if f0 ≥ 0 then S else -S) = q ∧ q ≠ 0 ∧ q * q = 2 * f0 * q + 1 := by
    by_cases h : f0 ≥ 0
    · refine ⟨f0 + S, by rw [if_pos h], by linarith [hSp] |> fun (h : 0 < f0 + S) => h.ne', by linear_combination hS⟩
    · refine ⟨f0 - S, by rw [if_neg h]; ring, ?_, by linear_combination hS⟩
      have : f0 - S < 0 := by push Not at h; linarith
      exact this.ne
  rw [hq]
  simp only [if_neg hq0, if_neg hd]
  generalize hf : ((st.d 0 - st.d 1) * (st.d 0 + st.d 1) + st.e 1 * (st.d 0 / q - st.e 1)) / st.d 0 = f
  have hfq : f = st.e 1 * q := tan_root (st.d 0) (st.e 1) (st.d 1) hd h1 f0 q f (by rw [← hf0, h0]; congr 1; ring) hq0 hqq hf.symm
  rw [show forRangeM 0 1 (sweepStep M N wU wV) { st := { st with nIter := st.nIter + 1 }, f := f, x := st.d 0, c := 1, s := 1 } =
    sweepStep M N wU wV 0 { st := { st with nIter := st.nIter + 1 }, f := f, x := st.d 0, c := 1, s := 1 } by
      simp [forRangeM, forNM]]
  rw [sweepStep]
  simp only [show (0 + 1 : Nat) = 1 from rfl, one_mul]
  have hzp : 0 < f * f + st.e 1 * st.e 1 := by nlinarith [mul_self_pos.mpr h1, mul_self_nonneg f]
  have hzz := Real.mul_self_sqrt hzp.le
  have hz0 : Real.sqrt (f * f + st.e 1 * st.e 1) ≠ 0 := (Real.sqrt_pos.mpr hzp).ne'
  generalize Real.sqrt (f * f + st.e 1 * st.e 1) = z at hzz hz0 ⊢
  simp only [if_neg hz0, Option.bind_some]
  refine ⟨_, _, rfl, rfl, ?_, ?_⟩
  · dsimp only
    rw [Vec.set_ne _ _ _ _ (by norm_num), Vec.set_self]
  · dsimp only
    rw [Vec.set_self, Vec.set_ne _ _ _ _ (by norm_num), Vec.set_self]
    generalize hF : st.d 0 * (f / z) + st.e 1 * (st.e 1 / z) = F
    generalize hH : st.d 1 * (st.e 1 / z) = H
    by_cases hw : Real.sqrt (F * F + H * H) = 0
    · exact Or.inr hw
    · left
      rw [if_pos hw, if_pos hw]
      generalize Real.sqrt (F * F + H * H) = w at hw
      have hnum : F * (-st.d 0 * (st.e 1 / z) + st.e 1 * (f / z)) + H * (st.d 1 * (f / z)) = 0 := by
        have e1 : st.d 0 * st.d 0 - st.d 1 * st.d 1 - st.e 1 * st.e 1 = f0 * (2 * st.e 1 * st.d 0) := by
          rw [← hf0, h0]; field_simp; ring
        rw [← hF, ← hH, hfq]
        field_simp
        linear_combination (-st.e 1 ^ 2 * q) * e1 + st.d 0 * st.e 1 ^ 3 * hqq
      have : F / w * (-st.d 0 * (st.e 1 / z) + st.e 1 * (f / z)) + H / w * (st.d 1 * (f / z)) =
        (F * (-st.d 0 * (st.e 1 / z) + st.e 1 * (f / z)) + H * (st.d 1 * (f / z))) / w := by ring
      rw [this, hnum, zero_div]

/-- the loop for `k = 1` converges after at most two sweeps -/
theorem iterate_one (negl : ℝ → Prop) (hn : ∀ x, negl x ↔ x = 0) (fuel : Nat) (hf : 2 ≤ fuel) (st : St) (h0 : st.e 0 = 0) (hi : st.nIter = 0) :
    ∃ z st', iterateK M N wU wV negl 1 fuel st = some (z, st') ∧ st'.nError = st.nError ∧ st'.e 0 = 0 := by
  obtain ⟨fuel, rfl⟩ : ∃ f, fuel = f + 2 := ⟨fuel - 2, by omega⟩
  rw [iterateK]
  by_cases hs : st.e 1 = 0 ∨ st.d 0 = 0
  · obtain ⟨z, st', e1, e2, e3⟩ := search_split (M := M) (N := N) (wU := wU) (wV := wV) negl hn st hs
    rw [e1]
    exact ⟨z, st', rfl, e2, by rw [e3, h0]⟩
  · push Not at hs
    have hs1 : searchFrom M N wU wV negl 1 (1 + 1) st = line565 M N wU wV 0 1 st := by
      rw [searchFrom, if_neg (fun hh => hs.1 (abs_eq_zero.mp ((hn _).mp hh))), if_neg (by norm_num),
        if_neg (fun hh => hs.2 (abs_eq_zero.mp ((hn _).mp hh))), searchFrom, if_pos ((hn _).mpr (by rw [h0, abs_zero]))]
    obtain ⟨z, st', e1, e2, e3, e4⟩ := sweep_two (M := M) (N := N) (wU := wU) (wV := wV) st h0 hs.1 hs.2 (by omega)
    rw [hs1, e1]
    simp only
    rw [iterateK]
    obtain ⟨z, st'', f1, f2, f3⟩ := search_split (M := M) (N := N) (wU := wU) (wV := wV) negl hn st' e4
    rw [f1]
    exact ⟨z, st'', rfl, by rw [f2, e2], by rw [f3, e3]⟩

theorem iterate_zero (negl : ℝ → Prop) (hn : ∀ x, negl x ↔ x = 0) (fuel : Nat) (hf : 1 ≤ fuel) (st : St) (h0 : st.e 0 = 0) :
    ∃ z, iterateK M N wU wV negl 0 fuel st = some (z, st) := by
  obtain ⟨fuel, rfl⟩ : ∃ f, fuel = f + 1 := ⟨fuel - 1, by omega⟩
  rw [iterateK, searchFrom, if_pos ((hn _).mpr (by rw [h0, abs_zero])), line565, if_pos rfl]
  exact ⟨_, rfl⟩

theorem diag_two (negl : ℝ → Prop) (hn : ∀ x, negl x ↔ x = 0) (fuel : Nat) (hf : 2 ≤ fuel) (st : St) (h0 : st.e 0 = 0) (hE : st.nError = 0) :
    ∃ st', diagonalize M N wU wV negl fuel 2 st = some st' ∧ st'.nError = 0 := by
  rw [diagonalize]
  obtain ⟨z, st1, e1, e2, e3⟩ := iterate_one (M := M) (N := N) (wU := wU) (wV := wV) negl hn fuel hf { st with nIter := 0 } h0 rfl
  rw [e1]
  simp only [Option.bind_some]
  have e2 : st1.nError = 0 := e2.trans hE
  rw [if_neg (by simpa using e2)]
  generalize hs : (if z < 0 then { st1 with d := Vec.set st1.d 1 (-z), V := if wV = true then forN N (fun j V => Mat.set V j 1 (-V j 1)) st1.V else st1.V } else st1) = st2
  have g1 : st2.nError = 0 := by rw [← hs]; split_ifs <;> exact e2
  have g2 : st2.e 0 = 0 := by rw [← hs]; split_ifs <;> exact e3
  rw [diagonalize]
  obtain ⟨z', f1⟩ := iterate_zero (M := M) (N := N) (wU := wU) (wV := wV) negl hn fuel (by omega) { st2 with nIter := 0 } g2
  rw [f1]
  simp only [Option.bind_some]
  rw [if_neg (by simpa using g1), diagonalize]
  refine ⟨_, rfl, ?_⟩
  split_ifs <;> exact g1

end
end TooN.GRSVD
