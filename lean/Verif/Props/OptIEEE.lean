import Verif.Spec.MachIEEE
import Verif.Props.OptMachSx
import Verif.Props.OptMachCG
/-!
# C74: the optimisers with IEEE arithmetic
-/
set_option linter.unusedSectionVars false
namespace TooN.Mach
open scoped Classical

variable {G : Grid}

/-! ## order and signs in a binary format -/

theorem rnd_zero (G : Grid) : G.rnd 0 = 0 := by
  have := G.neg 0
  rw [neg_zero] at this
  linarith

theorem ofReal_fix {x : ℝ} (h : G.rnd x = x ∧ |x| ≤ G.big) : XF.ofReal G x = .fin x h := by
  unfold XF.ofReal
  have := abs_le.1 h.2
  rw [dif_pos ⟨by rw [h.1]; exact this.2, by rw [h.1]; exact this.1⟩]
  simp only [h.1]

theorem key_ofReal_mono {x y : ℝ} (h : x ≤ y) : ∃ a b, (XF.ofReal G x).key = some a ∧ (XF.ofReal G y).key = some b ∧ a ≤ b := by
  have hm := G.mono x y h
  have hb := G.two_le
  unfold XF.ofReal
  by_cases h1 : G.rnd x ≤ G.big ∧ -G.big ≤ G.rnd x
  · rw [dif_pos h1]
    by_cases h2 : G.rnd y ≤ G.big ∧ -G.big ≤ G.rnd y
    · rw [dif_pos h2]
      exact ⟨_, _, rfl, rfl, by exact_mod_cast hm⟩
    · rw [dif_neg h2]
      have : G.big < G.rnd y := by
        by_contra hc
        exact h2 ⟨not_lt.1 hc, h1.2.trans hm⟩
      rw [if_pos this]
      exact ⟨_, _, rfl, rfl, (le_top : (_ : EReal) ≤ ⊤)⟩
  · rw [dif_neg h1]
    by_cases h3 : G.big < G.rnd x
    · rw [if_pos h3, dif_neg (by intro hc; linarith [hc.1]), if_pos (lt_of_lt_of_le h3 hm)]
      exact ⟨_, _, rfl, rfl, le_rfl⟩
    · rw [if_neg h3]
      split_ifs
      · exact ⟨_, _, rfl, rfl, (bot_le : ⊥ ≤ (_ : EReal))⟩
      · exact ⟨_, _, rfl, rfl, (bot_le : ⊥ ≤ (_ : EReal))⟩
      · exact ⟨_, _, rfl, rfl, (bot_le : ⊥ ≤ (_ : EReal))⟩

theorem ofReal_not_nan (x : ℝ) : XF.ofReal G x ≠ .nan := by
  unfold XF.ofReal
  split_ifs <;> simp

theorem ofReal_neg (x : ℝ) : XF.ofReal G (-x) = XF.neg (XF.ofReal G x) := by
  have hb := G.two_le
  unfold XF.ofReal
  by_cases h1 : G.rnd x ≤ G.big ∧ -G.big ≤ G.rnd x
  · rw [dif_pos h1, dif_pos (by rw [G.neg]; constructor <;> linarith [h1.1, h1.2])]
    simp only [XF.neg, G.neg]
  · rw [dif_neg h1, dif_neg (by rw [G.neg]; intro hc; exact h1 ⟨by linarith [hc.2], by linarith [hc.1]⟩)]
    by_cases h2 : G.big < G.rnd x
    · rw [if_pos h2, if_neg (by rw [G.neg]; linarith)]; rfl
    · have : G.rnd x < -G.big := by
        by_contra hc
        exact h1 ⟨not_lt.1 h2, not_lt.1 hc⟩
      rw [if_neg h2, if_pos (by rw [G.neg]; linarith)]; rfl

theorem hugeOk (G : Grid) : HugeOk (ofGrid G) := by
  constructor
  · intro x hx
    cases x with
    | fin x h => exact ⟨_, _, rfl, rfl, (le_top : (_ : EReal) ≤ ⊤)⟩
    | pinf => exact ⟨_, _, rfl, rfl, (le_top : (_ : EReal) ≤ ⊤)⟩
    | ninf => exact ⟨_, _, rfl, rfl, (le_top : (_ : EReal) ≤ ⊤)⟩
    | nan => exact absurd rfl hx
  · intro x hx
    cases x with
    | fin x h => exact ⟨_, _, rfl, rfl, (bot_le : ⊥ ≤ (_ : EReal))⟩
    | pinf => exact ⟨_, _, rfl, rfl, (bot_le : ⊥ ≤ (_ : EReal))⟩
    | ninf => exact ⟨_, _, rfl, rfl, (bot_le : ⊥ ≤ (_ : EReal))⟩
    | nan => exact absurd rfl hx

theorem infOf_neg (x : ℝ) : XF.infOf G (-x) = XF.neg (XF.infOf G x) := by
  unfold XF.infOf
  rcases lt_trichotomy x 0 with h | h | h
  · rw [if_pos (by linarith), if_neg (by linarith), if_pos h]; rfl
  · subst h; simp [XF.neg]
  · rw [if_neg (by linarith), if_pos (by linarith), if_pos h]; rfl

theorem mul_comm' (a b : XF G) : XF.mul a b = XF.mul b a := by
  cases a <;> cases b <;> simp only [XF.mul]
  rw [mul_comm]

theorem mul_neg' (a b : XF G) : XF.mul a (XF.neg b) = XF.neg (XF.mul a b) := by
  have inv : ∀ x : ℝ, XF.infOf G x = XF.neg (XF.infOf G (-x)) := fun x => by
    rw [infOf_neg]; unfold XF.infOf; split_ifs <;> rfl
  cases a with
  | fin x _ =>
    cases b with
    | fin y _ =>
      change XF.ofReal G (x * -y) = XF.neg (XF.ofReal G (x * y))
      rw [mul_neg, ofReal_neg]
    | pinf => exact infOf_neg x
    | ninf => exact inv x
    | nan => rfl
  | pinf =>
    cases b with
    | fin y _ => exact infOf_neg y
    | pinf => rfl
    | ninf => rfl
    | nan => rfl
  | ninf =>
    cases b with
    | fin y _ => exact infOf_neg (-y)
    | pinf => rfl
    | ninf => rfl
    | nan => rfl
  | nan => rfl

theorem lit_neg_one : (ofGrid G).lit (-1) = XF.neg (.fin 1 ⟨G.one, by rw [abs_one]; linarith [G.two_le]⟩) := by
  change XF.ofReal G ((-1 : ℚ) : ℝ) = _
  push_cast
  rw [ofReal_neg, ofReal_fix]

theorem mul_one' (a : XF G) : XF.mul a (.fin 1 ⟨G.one, by rw [abs_one]; linarith [G.two_le]⟩) = a := by
  cases a with
  | fin x h => simp only [XF.mul, mul_one]; exact ofReal_fix h
  | pinf => simp [XF.mul, XF.infOf]
  | ninf => simp only [XF.mul, XF.infOf]; norm_num
  | nan => rfl

theorem neg_step (t h : XF G) :
    XF.mul t (XF.mul h (XF.neg (.fin 1 ⟨G.one, by rw [abs_one]; linarith [G.two_le]⟩))) = XF.neg (XF.mul t h) := by
  rw [mul_neg', mul_one', mul_neg']

theorem signOk (G : Grid) : SignOk (ofGrid G) := by
  intro a h t
  have key : t * (h * (ofGrid G).lit (-1)) = XF.neg (XF.mul (t : XF G) h) := by
    rw [lit_neg_one]
    exact neg_step (t : XF G) h
  rw [key]
  exact ⟨congrArg (fun z => XF.add (a : XF G) (XF.neg z)) (mul_comm' (h : XF G) t), rfl⟩

/-- zero is below exactly the non-negative numbers and infinity -/
theorem zero_le_iff (x : (ofGrid G).F) : (ofGrid G).lit 0 ≤ x ↔ x = XF.pinf ∨ ∃ v h, x = XF.fin v h ∧ 0 ≤ v := by
  have h0 : (ofGrid G).lit 0 = XF.fin 0 ⟨rnd_zero G, by rw [abs_zero]; linarith [G.two_le]⟩ := by
    change XF.ofReal G ((0 : ℚ) : ℝ) = _
    push_cast
    exact ofReal_fix _
  rw [h0]
  constructor
  · rintro ⟨a, b, h1, h2, h3⟩
    change (some _ : Option EReal) = some a at h1
    cases h1
    cases x with
    | fin v h =>
      change (some _ : Option EReal) = some b at h2
      cases h2
      exact Or.inr ⟨v, h, rfl, EReal.coe_le_coe_iff.1 h3⟩
    | pinf => exact Or.inl rfl
    | ninf =>
      change (some _ : Option EReal) = some b at h2
      cases h2
      exact absurd (le_bot_iff.1 (h3 : ((0 : ℝ) : EReal) ≤ ⊥)) (EReal.coe_ne_bot 0)
    | nan => cases h2
  · rintro (rfl | ⟨v, h, rfl, hv⟩)
    · exact ⟨_, _, rfl, rfl, (le_top : (_ : EReal) ≤ ⊤)⟩
    · exact ⟨_, _, rfl, rfl, EReal.coe_le_coe_iff.2 hv⟩

theorem ofReal_nonneg {x : ℝ} (h : 0 ≤ x) : XF.ofReal G x = .pinf ∨ ∃ v hv, XF.ofReal G x = .fin v hv ∧ 0 ≤ v := by
  have hm := G.mono 0 x h
  rw [rnd_zero] at hm
  unfold XF.ofReal
  by_cases h1 : G.rnd x ≤ G.big ∧ -G.big ≤ G.rnd x
  · rw [dif_pos h1]; exact Or.inr ⟨_, _, rfl, hm⟩
  · rw [dif_neg h1, if_pos]
    · exact Or.inl rfl
    · by_contra hc
      exact h1 ⟨not_lt.1 hc, by linarith [G.two_le]⟩

theorem lt_fin_iff {x y : ℝ} {hx hy} : (XF.fin x hx : (ofGrid G).F) < (XF.fin y hy : (ofGrid G).F) ↔ x < y := by
  constructor
  · rintro ⟨a, b, h1, h2, h3⟩
    change (some _ : Option EReal) = some a at h1
    change (some _ : Option EReal) = some b at h2
    cases h1; cases h2
    exact EReal.coe_lt_coe_iff.1 h3
  · intro h
    exact ⟨_, _, rfl, rfl, EReal.coe_lt_coe_iff.2 h⟩

theorem le_fin_iff {x y : ℝ} {hx hy} : (XF.fin x hx : (ofGrid G).F) ≤ (XF.fin y hy : (ofGrid G).F) ↔ x ≤ y := by
  constructor
  · rintro ⟨a, b, h1, h2, h3⟩
    change (some _ : Option EReal) = some a at h1
    change (some _ : Option EReal) = some b at h2
    cases h1; cases h2
    exact EReal.coe_le_coe_iff.1 h3
  · intro h
    exact ⟨_, _, rfl, rfl, EReal.coe_le_coe_iff.2 h⟩

theorem not_lt_of_ofReal {v z : ℝ} {hv} (h : v ≤ z) : ¬ (XF.ofReal G z : (ofGrid G).F) < (XF.fin v hv : (ofGrid G).F) := by
  rintro ⟨a, b, h1, h2, h3⟩
  obtain ⟨a', b', e1, e2, e3⟩ := key_ofReal_mono (G := G) h
  rw [ofReal_fix hv] at e1
  change XF.key _ = some a at h1
  change (XF.fin v hv : XF G).key = some b at h2
  rw [e2] at h1; rw [e1] at h2
  cases h1; cases h2
  exact absurd h3 (not_lt.2 e3)

theorem pinf_not_lt (x : (ofGrid G).F) : ¬ (XF.pinf : (ofGrid G).F) < x := by
  rintro ⟨a, b, h1, h2, h3⟩
  change (some _ : Option EReal) = some a at h1
  cases h1
  exact absurd h3 not_top_lt

theorem nonneg_mul {x y : (ofGrid G).F} (hx : (ofGrid G).lit 0 ≤ x) (hy : (ofGrid G).lit 0 ≤ y) :
    x * y = XF.nan ∨ (ofGrid G).lit 0 ≤ x * y := by
  rw [zero_le_iff] at hx hy
  rcases hx with rfl | ⟨v, hv, rfl, v0⟩ <;> rcases hy with rfl | ⟨w, hw, rfl, w0⟩
  · right; rw [zero_le_iff]; exact Or.inl rfl
  · change XF.infOf G w = _ ∨ _ ≤ XF.infOf G w
    unfold XF.infOf
    split_ifs with h1 h2
    · right; rw [zero_le_iff]; exact Or.inl rfl
    · linarith
    · exact Or.inl rfl
  · change XF.infOf G v = _ ∨ _ ≤ XF.infOf G v
    unfold XF.infOf
    split_ifs with h1 h2
    · right; rw [zero_le_iff]; exact Or.inl rfl
    · linarith
    · exact Or.inl rfl
  · right
    rw [zero_le_iff]
    exact ofReal_nonneg (mul_nonneg v0 w0)

theorem stepOk (G : Grid) : StepOk (ofGrid G) := by
  have hlit : ∀ q : ℚ, (ofGrid G).lit q = XF.ofReal G (q : ℝ) := fun _ => rfl
  have e1 : (ofGrid G).lit 1 = XF.fin 1 ⟨G.one, by rw [abs_one]; linarith [G.two_le]⟩ := by
    rw [hlit]; push_cast; exact ofReal_fix _
  have e2 : (ofGrid G).lit 2 = XF.fin 2 ⟨G.two, by rw [abs_two]; linarith [G.two_le]⟩ := by
    rw [hlit]; push_cast; exact ofReal_fix _
  have eh : (ofGrid G).lit (1 / 2) = XF.fin (1 / 2) ⟨G.half, by rw [abs_of_pos (by norm_num)]; linarith [G.two_le]⟩ := by
    rw [hlit]; push_cast; exact ofReal_fix _
  refine ⟨?_, ?_, ?_, ?_⟩
  · rw [zero_le_iff, e1]; exact Or.inr ⟨_, _, rfl, by norm_num⟩
  · intro l hl
    rw [eh]
    rcases (zero_le_iff l).1 hl with rfl | ⟨v, hv, rfl, v0⟩
    · have : (XF.pinf : (ofGrid G).F) * (XF.fin (1 / 2) ⟨G.half, by rw [abs_of_pos (by norm_num)]; linarith [G.two_le]⟩ : (ofGrid G).F)
          = XF.pinf := by
        change XF.infOf G (1 / 2) = _
        unfold XF.infOf; rw [if_pos (by norm_num)]
      rw [this]
      exact ⟨by rw [zero_le_iff]; exact Or.inl rfl, pinf_not_lt _⟩
    · constructor
      · rw [zero_le_iff]; exact ofReal_nonneg (by positivity)
      · change ¬ _ < (XF.ofReal G (v * (1 / 2)) : (ofGrid G).F)
        rintro ⟨a, b, h1, h2, h3⟩
        obtain ⟨a', b', q1, q2, q3⟩ := key_ofReal_mono (G := G) (show v * (1 / 2) ≤ v by linarith)
        rw [ofReal_fix hv] at q2
        change (XF.fin v hv : XF G).key = some a at h1
        change XF.key _ = some b at h2
        rw [q1] at h2; rw [q2] at h1
        cases h1; cases h2
        exact absurd h3 (not_lt.2 q3)
  · intro l hl
    rw [e2]
    rcases (zero_le_iff l).1 hl with rfl | ⟨v, hv, rfl, v0⟩
    · have : (XF.pinf : (ofGrid G).F) * (XF.fin 2 ⟨G.two, by rw [abs_two]; linarith [G.two_le]⟩ : (ofGrid G).F) = XF.pinf := by
        change XF.infOf G 2 = _
        unfold XF.infOf; rw [if_pos (by norm_num)]
      rw [this]
      exact ⟨by rw [zero_le_iff]; exact Or.inl rfl, ⟨_, _, rfl, rfl, (le_top : (_ : EReal) ≤ ⊤)⟩⟩
    · constructor
      · rw [zero_le_iff]; exact ofReal_nonneg (by positivity)
      · obtain ⟨a', b', q1, q2, q3⟩ := key_ofReal_mono (G := G) (show v ≤ v * 2 by linarith)
        rw [ofReal_fix hv] at q1
        exact ⟨a', b', q1, q2, q3⟩
  · intro g b l hg hgb hl
    rcases (zero_le_iff g).1 hg with rfl | ⟨v, hv, rfl, v0⟩
    · exact fun h => by
        generalize hz : (b - XF.pinf) * l = z at h
        cases z with
        | fin x h' => exact absurd h (pinf_not_lt _)
        | pinf => exact absurd h (pinf_not_lt _)
        | ninf => exact (lt_not_nan h).1 rfl
        | nan => exact (lt_not_nan h).1 rfl
    · -- the difference is non-negative
      have hd : (ofGrid G).lit 0 ≤ b - (XF.fin v hv : (ofGrid G).F) := by
        cases b with
        | fin w hw =>
          rw [zero_le_iff]
          have hle : v ≤ w := le_fin_iff.1 hgb
          change XF.ofReal G (w + -v) = _ ∨ _
          exact ofReal_nonneg (by linarith)
        | pinf => rw [zero_le_iff]; exact Or.inl rfl
        | ninf =>
          exfalso
          obtain ⟨a, b, h1, h2, h3⟩ := hgb
          change (some _ : Option EReal) = some a at h1
          change (some _ : Option EReal) = some b at h2
          cases h1; cases h2
          exact absurd (le_bot_iff.1 (h3 : (v : EReal) ≤ ⊥)) (EReal.coe_ne_bot v)
        | nan => exact absurd rfl (le_not_nan hgb).2
      rcases nonneg_mul hd hl with h | h
      · rw [h]; exact nan_not_lt (Or.inl rfl)
      · rcases (zero_le_iff _).1 h with h | ⟨w, hw, h, w0⟩
        · rw [h]; exact pinf_not_lt _
        · rw [h]
          exact not_lt_of_ofReal (by linarith)

/-- the laws hold in every binary format, in particular `float` and `double`: the theorems above apply to them -/
theorem c74_formats (G : Grid) : HugeOk (ofGrid G) ∧ SignOk (ofGrid G) ∧ StepOk (ofGrid G) :=
  ⟨hugeOk G, signOk G, stepOk G⟩

example : HugeOk (ofGrid Grid.double) ∧ SignOk (ofGrid Grid.double) ∧ StepOk (ofGrid Grid.double) := c74_formats _

end TooN.Mach
