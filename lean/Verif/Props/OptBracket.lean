import Verif.Props.OptIEEE
/-!
# C74: where the line searches evaluate the function, in IEEE arithmetic
-/
set_option linter.unusedSectionVars false
namespace TooN.Mach
open scoped Classical

variable {G : Grid}

/-- the floating-point value `x` is the finite number `v` -/
def IsFin (x : XF G) (v : ℝ) : Prop := ∃ h, x = .fin v h

theorem isFin_rep {x : XF G} {v : ℝ} (h : IsFin x v) : G.rnd v = v ∧ |v| ≤ G.big := h.1

theorem rnd_between {p q z : ℝ} (hp : G.rnd p = p) (hq : G.rnd q = q) (h1 : p ≤ z) (h2 : z ≤ q) :
    p ≤ G.rnd z ∧ G.rnd z ≤ q := by
  constructor
  · rw [← hp]; exact G.mono _ _ h1
  · rw [← hq]; exact G.mono _ _ h2

theorem ofReal_isFin {z : ℝ} (h : |G.rnd z| ≤ G.big) : IsFin (XF.ofReal G z) (G.rnd z) := by
  refine ⟨⟨G.idem z, h⟩, ?_⟩
  unfold XF.ofReal
  rw [dif_pos ⟨(abs_le.1 h).2, (abs_le.1 h).1⟩]

theorem gold_isFin (G : Grid) : ∃ γ, IsFin (ofGrid G).gold γ ∧ γ = G.rnd ((3 - Real.sqrt 5) / 2) ∧ 0 ≤ γ ∧ γ ≤ 1 / 2 := by
  obtain ⟨g0, g1⟩ := gold_bounds
  obtain ⟨h1, h2⟩ := rnd_between (rnd_zero G) G.half g0 g1
  refine ⟨_, ofReal_isFin ?_, rfl, h1, h2⟩
  rw [abs_of_nonneg h1]; linarith [G.two_le]

/-- the step `gold * (q - p)`, for `p ≤ q` -/
theorem gold_step {a b : XF G} {p q : ℝ} (ha : IsFin a p) (hb : IsFin b q) (h : p ≤ q) (hbig : q - p ≤ G.big) :
    ∃ d, IsFin ((ofGrid G).gold * (b - a)) d ∧ IsFin ((ofGrid G).gold * (a - b)) (-d) ∧ 0 ≤ d ∧ d ≤ q - p := by
  obtain ⟨ra, rfl⟩ := ha
  obtain ⟨rb, rfl⟩ := hb
  obtain ⟨γ, ⟨hγ, eγ⟩, e, γ0, γ1⟩ := gold_isFin G
  have hbp := G.two_le
  have r0 := (rnd_between (rnd_zero G) G.big_fix (show 0 ≤ q - p by linarith) hbig)
  have hs : IsFin (XF.sub (.fin q rb) (.fin p ra)) (G.rnd (q - p)) := by
    change IsFin (XF.ofReal G (q + -p)) _
    rw [← sub_eq_add_neg]
    exact ofReal_isFin (by rw [abs_of_nonneg r0.1]; exact r0.2)
  have hs' : IsFin (XF.sub (.fin p ra) (.fin q rb)) (-G.rnd (q - p)) := by
    change IsFin (XF.ofReal G (p + -q)) _
    rw [show p + -q = -(q - p) by ring, ← G.neg]
    exact ofReal_isFin (by rw [G.neg, abs_neg, abs_of_nonneg r0.1]; exact r0.2)
  have ht := G.tame p q ra.1 rb.1 h
  rw [← e] at ht
  have hn : 0 ≤ G.rnd (γ * G.rnd (q - p)) := by
    rw [← rnd_zero G]
    exact G.mono _ _ (mul_nonneg γ0 r0.1)
  refine ⟨G.rnd (γ * G.rnd (q - p)), ?_, ?_, hn, ht⟩
  · change IsFin (XF.mul (ofGrid G).gold (XF.sub (.fin q rb) (.fin p ra))) _
    obtain ⟨h1, e1⟩ := hs
    rw [e1, eγ]
    change IsFin (XF.ofReal G (γ * G.rnd (q - p))) _
    exact ofReal_isFin (by rw [abs_of_nonneg hn]; linarith)
  · change IsFin (XF.mul (ofGrid G).gold (XF.sub (.fin p ra) (.fin q rb))) _
    obtain ⟨h1, e1⟩ := hs'
    rw [e1, eγ]
    change IsFin (XF.ofReal G (γ * -G.rnd (q - p))) _
    rw [mul_neg, ← G.neg]
    exact ofReal_isFin (by rw [G.neg, abs_neg, abs_of_nonneg hn]; linarith)

theorem add_between {x y : XF G} {v d lo hi : ℝ} (hx : IsFin x v) (hy : IsFin y d) (hlo : G.rnd lo = lo ∧ |lo| ≤ G.big)
    (hhi : G.rnd hi = hi ∧ |hi| ≤ G.big) (h1 : lo ≤ v + d) (h2 : v + d ≤ hi) :
    ∃ w, IsFin (x + y) w ∧ lo ≤ w ∧ w ≤ hi := by
  obtain ⟨rx, rfl⟩ := hx
  obtain ⟨ry, rfl⟩ := hy
  obtain ⟨q1, q2⟩ := rnd_between hlo.1 hhi.1 h1 h2
  have b1 := abs_le.1 hlo.2
  have b2 := abs_le.1 hhi.2
  refine ⟨G.rnd (v + d), ?_, q1, q2⟩
  change IsFin (XF.ofReal G (v + d)) _
  exact ofReal_isFin (abs_le.2 ⟨by linarith, by linarith⟩)

theorem sub_between {x y : XF G} {v d lo hi : ℝ} (hx : IsFin x v) (hy : IsFin y d) (hlo : G.rnd lo = lo ∧ |lo| ≤ G.big)
    (hhi : G.rnd hi = hi ∧ |hi| ≤ G.big) (h1 : lo ≤ v - d) (h2 : v - d ≤ hi) :
    ∃ w, IsFin (x - y) w ∧ lo ≤ w ∧ w ≤ hi := by
  have hn : IsFin (XF.neg y) (-d) := by
    obtain ⟨ry, rfl⟩ := hy
    exact ⟨_, rfl⟩
  have := add_between hx hn hlo hhi (by linarith) (by linarith)
  exact this

/-! ## golden section -/

/-- the four points are finite and in order, within the given interval -/
def GsOrd (A C : ℝ) (s : GS (ofGrid G)) : Prop :=
  ∃ a x1 x2 c, IsFin s.a a ∧ IsFin s.x1 x1 ∧ IsFin s.x2 x2 ∧ IsFin s.c c ∧ A ≤ a ∧ a ≤ x1 ∧ x1 ≤ x2 ∧ x2 ≤ c ∧ c ≤ C ∧
    ∀ t ∈ s.log, ∃ v, IsFin t v ∧ A ≤ v ∧ v ≤ C

theorem gsInit_ord (f : (ofGrid G).F → (ofGrid G).F) {a b c : XF G} {A B C : ℝ} (ha : IsFin a A) (hb : IsFin b B)
    (hc : IsFin c C) (h1 : A ≤ B) (h2 : B ≤ C) (hbig : C - A ≤ G.big) (fb : (ofGrid G).F) :
    GsOrd A C (gsInit (M := ofGrid G) f a b c fb) := by
  unfold gsInit
  split
  · obtain ⟨d, hd, -, d0, d1⟩ := gold_step ha hb h1 (by linarith)
    obtain ⟨w, hw, w1, w2⟩ := sub_between hb hd (isFin_rep ha) (isFin_rep hb) (by linarith) (by linarith)
    exact ⟨A, w, B, C, ha, hw, hb, hc, le_rfl, w1, w2, h2, le_rfl, fun t ht => by
      obtain rfl := List.mem_singleton.1 ht
      exact ⟨w, hw, w1, w2.trans h2⟩⟩
  · obtain ⟨d, hd, -, d0, d1⟩ := gold_step hb hc h2 (by linarith)
    obtain ⟨w, hw, w1, w2⟩ := add_between hb hd (isFin_rep hb) (isFin_rep hc) (by linarith) (by linarith)
    exact ⟨A, B, w, C, ha, hb, hw, hc, le_rfl, h1, w1, w2, le_rfl, fun t ht => by
      obtain rfl := List.mem_singleton.1 ht
      exact ⟨w, hw, h1.trans w1, w2⟩⟩

theorem gsStep_ord (f : (ofGrid G).F → (ofGrid G).F) {A C : ℝ} (hbig : C - A ≤ G.big) {s : GS (ofGrid G)}
    (h : GsOrd A C s) : GsOrd A C (gsStep f s) := by
  obtain ⟨a, x1, x2, c, ha, h1, h2, hc, o1, o2, o3, o4, o5, hl⟩ := h
  unfold gsStep
  split
  · obtain ⟨d, hd, -, d0, d1⟩ := gold_step h2 hc o4 (by linarith)
    obtain ⟨w, hw, w1, w2⟩ := add_between h2 hd (isFin_rep h2) (isFin_rep hc) (by linarith) (by linarith)
    refine ⟨x1, x2, w, c, h1, h2, hw, hc, o1.trans o2, o3, w1, w2, o5, fun t ht => ?_⟩
    rcases List.mem_cons.1 ht with rfl | ht
    · exact ⟨w, hw, by linarith, by linarith⟩
    · exact hl t ht
  · obtain ⟨d, hd, -, d0, d1⟩ := gold_step ha h1 o2 (by linarith)
    obtain ⟨w, hw, w1, w2⟩ := sub_between h1 hd (isFin_rep ha) (isFin_rep h1) (by linarith) (by linarith)
    refine ⟨a, w, x1, x2, ha, hw, h1, h2, o1, w1, w2, o3, by linarith, fun t ht => ?_⟩
    rcases List.mem_cons.1 ht with rfl | ht
    · exact ⟨w, hw, by linarith, by linarith⟩
    · exact hl t ht

/-- **C74 (golden section, domain).** In every IEEE format, for every function (NaN values included): if the bracket is finite,
ordered and its width does not overflow, the function is only evaluated at numbers within the bracket, and the returned point
is within it. -/
theorem c74_golden_domain (f : (ofGrid G).F → (ofGrid G).F) (fuel : Nat) (a b c fb : XF G) (A B C : ℝ) (ha : IsFin a A)
    (hb : IsFin b B) (hc : IsFin c C) (h1 : A ≤ B) (h2 : B ≤ C) (hbig : C - A ≤ G.big) (maxit : Int) (tol x y : XF G)
    (log : List (XF G)) (h : goldenSection (M := ofGrid G) f fuel a b c fb maxit tol = some (x, y, log)) :
    (∃ v, IsFin x v ∧ A ≤ v ∧ v ≤ C) ∧ ∀ t ∈ log, ∃ v, IsFin t v ∧ A ≤ v ∧ v ≤ C := by
  unfold goldenSection at h
  obtain ⟨s, hs, e⟩ := Option.map_eq_some_iff.1 h
  have hi : ∀ (fuel : Nat) (s s' : GS (ofGrid G)), GsOrd A C s → gsLoop f maxit tol fuel s = some s' → GsOrd A C s' := by
    intro fuel
    induction fuel with
    | zero => intro s s' _ h; simp [gsLoop] at h
    | succ k ih =>
      intro s s' hi h
      unfold gsLoop at h
      split at h
      · exact ih _ _ (gsStep_ord f hbig hi) h
      · cases h; exact hi
  obtain ⟨a', x1, x2, c', ha', q1, q2, hc', o1, o2, o3, o4, o5, hl⟩ := hi _ _ _ (gsInit_ord f ha hb hc h1 h2 hbig fb) hs
  unfold gsOut at e
  split at e <;>
  · simp only [Prod.mk.injEq] at e
    obtain ⟨rfl, rfl, rfl⟩ := e
    refine ⟨?_, hl⟩
    first | exact ⟨x1, q1, by linarith, by linarith⟩ | exact ⟨x2, q2, by linarith, by linarith⟩

/-! ## Brent -/

/-- the points are finite and in order, within the given interval -/
def BrOrd (A B : ℝ) (s : BR (ofGrid G)) : Prop :=
  ∃ a x b, IsFin s.a a ∧ IsFin s.x x ∧ IsFin s.b b ∧ A ≤ a ∧ a ≤ x ∧ x ≤ b ∧ b ≤ B

theorem gt_fin {x y : XF G} {v w : ℝ} (hx : IsFin x v) (hy : IsFin y w) : x < y ↔ v < w := by
  obtain ⟨_, rfl⟩ := hx
  obtain ⟨_, rfl⟩ := hy
  exact lt_fin_iff

/-- the point evaluated next is NaN or within the current bracket -/
theorem brMove_domain (tol eps : XF G) {A B : ℝ} (hbig : B - A ≤ G.big) {s : BR (ofGrid G)} {a x b : ℝ} (ha : IsFin s.a a)
    (hx : IsFin s.x x) (hb : IsFin s.b b) (o1 : A ≤ a) (o2 : a ≤ x) (o3 : x ≤ b) (o4 : b ≤ B) :
    s.x + (brMove (M := ofGrid G) tol eps s).1 = XF.nan ∨ ∃ u, IsFin (s.x + (brMove (M := ofGrid G) tol eps s).1) u ∧ a ≤ u ∧ u ≤ b := by
  have hg : ∃ u, IsFin (s.x + (brGolden s).1) u ∧ a ≤ u ∧ u ≤ b := by
    unfold brGolden
    dsimp only
    split
    · obtain ⟨d, -, hd, d0, d1⟩ := gold_step ha hx o2 (by linarith)
      obtain ⟨w, hw, w1, w2⟩ := add_between hx hd (isFin_rep ha) (isFin_rep hb) (by linarith) (by linarith)
      exact ⟨w, hw, w1, w2⟩
    · obtain ⟨d, hd, -, d0, d1⟩ := gold_step hx hb o3 (by linarith)
      obtain ⟨w, hw, w1, w2⟩ := add_between hx hd (isFin_rep ha) (isFin_rep hb) (by linarith) (by linarith)
      exact ⟨w, hw, w1, w2⟩
  unfold brMove
  dsimp only
  split_ifs with h1 h2
  · exact Or.inr hg
  · push Not at h2
    obtain ⟨-, h3, h4, -⟩ := h2
    dsimp only
    generalize s.x + (_ / _ : XF G) = u at h3 h4 ⊢
    obtain ⟨ra, ea⟩ := ha
    obtain ⟨rb, eb⟩ := hb
    rw [ea] at h3
    rw [eb] at h4
    cases u with
    | fin v hv =>
      refine Or.inr ⟨v, ⟨hv, rfl⟩, ?_, ?_⟩
      · by_contra hc; exact h3 (lt_fin_iff.2 (not_le.1 hc))
      · by_contra hc; exact h4 (lt_fin_iff.2 (not_le.1 hc))
    | pinf =>
      exact absurd (show (XF.fin b rb : XF G) < XF.pinf from ⟨_, _, rfl, rfl, (EReal.coe_lt_top b)⟩) h4
    | ninf =>
      exact absurd (show (XF.ninf : XF G) < XF.fin a ra from ⟨_, _, rfl, rfl, (EReal.bot_lt_coe a)⟩) h3
    | nan => exact Or.inl rfl
  · exact Or.inr hg

theorem add_nan (x : XF G) : XF.add XF.nan x = XF.nan := by cases x <;> rfl

theorem nan_lt (x : XF G) : ¬ (XF.nan : XF G) < x := nan_not_lt (M := ofGrid G) (Or.inl rfl)
theorem lt_nan (x : XF G) : ¬ x < (XF.nan : XF G) := nan_not_lt (M := ofGrid G) (Or.inr rfl)

/-- one iteration -/
theorem brStep_domain (f : (ofGrid G).F → (ofGrid G).F) (tol eps : XF G) {A B : ℝ} (hbig : B - A ≤ G.big) {s : BR (ofGrid G)}
    (h : BrOrd A B s ∨ s.x = XF.nan) :
    (s.x + (brMove (M := ofGrid G) tol eps s).1 = XF.nan ∨
      ∃ u, IsFin (s.x + (brMove (M := ofGrid G) tol eps s).1) u ∧ A ≤ u ∧ u ≤ B) ∧
    (BrOrd A B (brStep f tol eps s) ∨ (brStep f tol eps s).x = XF.nan ∨ (brStep f tol eps s).b = XF.nan) := by
  rcases h with ⟨a, x, b, ha, hx, hb, o1, o2, o3, o4⟩ | h
  · have hd := brMove_domain tol eps hbig ha hx hb o1 o2 o3 o4
    constructor
    · rcases hd with hd | ⟨u, hu, u1, u2⟩
      · exact Or.inl hd
      · exact Or.inr ⟨u, hu, by linarith, by linarith⟩
    · unfold brStep
      dsimp only
      generalize s.x + (brMove (M := ofGrid G) tol eps s).1 = u at hd
      rcases hd with rfl | ⟨v, hv, u1, u2⟩
      · by_cases hlt : f XF.nan < s.fx
        · rw [if_pos hlt]
          exact Or.inr (Or.inl rfl)
        · rw [if_neg hlt, if_neg (nan_lt _)]
          right; right
          split_ifs <;> rfl
      · by_cases hlt : f u < s.fx
        · rw [if_pos hlt]
          by_cases hgt : u > s.x
          · rw [if_pos hgt]
            exact Or.inl ⟨x, v, b, hx, hv, hb, by linarith, ((gt_fin hx hv).1 hgt).le, u2, o4⟩
          · rw [if_neg hgt]
            exact Or.inl ⟨a, v, x, ha, hv, hx, o1, u1, not_lt.1 fun hc => hgt ((gt_fin hx hv).2 hc), by linarith⟩
        · rw [if_neg hlt]
          left
          by_cases hgt : u < s.x
          · have : ∀ t : BR (ofGrid G), t.a = u → t.x = s.x → t.b = s.b → BrOrd A B t := fun t e1 e2 e3 =>
              ⟨v, x, b, by rw [e1]; exact hv, by rw [e2]; exact hx, by rw [e3]; exact hb, by linarith,
                ((gt_fin hv hx).1 hgt).le, o3, o4⟩
            rw [if_pos hgt]
            split_ifs <;> exact this _ rfl rfl rfl
          · have : ∀ t : BR (ofGrid G), t.a = s.a → t.x = s.x → t.b = u → BrOrd A B t := fun t e1 e2 e3 =>
              ⟨a, x, v, by rw [e1]; exact ha, by rw [e2]; exact hx, by rw [e3]; exact hv, o1, o2,
                not_lt.1 fun hc => hgt ((gt_fin hv hx).2 hc), by linarith⟩
            rw [if_neg hgt]
            split_ifs <;> exact this _ rfl rfl rfl
  · have hu : s.x + (brMove (M := ofGrid G) tol eps s).1 = XF.nan := by
      have h' : XF.add s.x (brMove (M := ofGrid G) tol eps s).1 = XF.add XF.nan (brMove (M := ofGrid G) tol eps s).1 :=
        congrArg (fun z => XF.add z (brMove (M := ofGrid G) tol eps s).1) h
      exact h'.trans (add_nan _)
    refine ⟨Or.inl hu, Or.inr (Or.inl ?_)⟩
    unfold brStep
    dsimp only
    rw [hu]
    split_ifs <;> first | rfl | exact h

theorem sub_nan_left (x : XF G) : XF.sub XF.nan x = XF.nan := add_nan _

/-- **C74 (Brent, domain).** In every IEEE format, for every function: if the bracket is finite, ordered and its width does not
overflow, the function is only evaluated at numbers within the bracket or at NaN. -/
theorem c74_brent_domain_partial (f : (ofGrid G).F → (ofGrid G).F) (a x b fx : XF G) (A X B : ℝ) (ha : IsFin a A) (hx : IsFin x X)
    (hb : IsFin b B) (h1 : A ≤ X) (h2 : X ≤ B) (hbig : B - A ≤ G.big) (maxit : Int) (tol eps x' y : XF G)
    (log : List (XF G)) (h : brent (M := ofGrid G) f a x b fx maxit tol eps = (x', y, log)) :
    ∀ t ∈ log, t = XF.nan ∨ ∃ v, IsFin t v ∧ A ≤ v ∧ v ≤ B := by
  have key : ∀ (k : Nat) (s : BR (ofGrid G)), (BrOrd A B s ∨ s.x = XF.nan ∨ s.b = XF.nan) →
      (∀ t ∈ s.log, t = XF.nan ∨ ∃ v, IsFin t v ∧ A ≤ v ∧ v ≤ B) →
      ∀ t ∈ (brLoop f tol eps k s).log, t = XF.nan ∨ ∃ v, IsFin t v ∧ A ≤ v ∧ v ≤ B := by
    intro k
    induction k with
    | zero => intro s _ hl; exact hl
    | succ k ih =>
      intro s hs hl
      unfold brLoop
      split
      · rename_i hc
        have hs' : BrOrd A B s ∨ s.x = XF.nan := by
          rcases hs with h | h | h
          · exact Or.inl h
          · exact Or.inr h
          · exfalso
            unfold brCond at hc
            have : (ofGrid G).abs (s.b - s.a) = XF.nan := by
              rw [h]
              change XF.abs (XF.sub XF.nan s.a) = XF.nan
              rw [sub_nan_left]; rfl
            rw [this] at hc
            exact lt_nan _ hc
        obtain ⟨q1, q2⟩ := brStep_domain f tol eps hbig hs'
        refine ih _ q2 ?_
        rw [brStep_log]
        intro t ht
        rcases List.mem_cons.1 ht with rfl | ht
        · exact q1
        · exact hl t ht
      · exact hl
  unfold brent at h
  simp only [Prod.mk.injEq] at h
  rw [← h.2.2]
  exact key _ _ (Or.inl ⟨A, X, B, ha, hx, hb, le_rfl, h1, h2, le_rfl⟩) (fun t ht => by simp [brInit] at ht)

end TooN.Mach
