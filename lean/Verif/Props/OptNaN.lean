import Verif.Props.OptBracket
/-!
# C74: what NaN and infinite function values do to Brent's search and to the simplex, in IEEE arithmetic
-/
set_option linter.unusedSectionVars false
namespace TooN.Mach
open scoped Classical

variable {G : Grid}

/-- `x` is a finite number of the format -/
def Rp (G : Grid) (x : ℝ) : Prop := G.rnd x = x ∧ |x| ≤ G.big

theorem rp_zero : Rp G 0 := ⟨rnd_zero G, by rw [abs_zero]; linarith [G.two_le]⟩
theorem rp_one : Rp G 1 := ⟨G.one, by rw [abs_one]; linarith [G.two_le]⟩
theorem rp_two : Rp G 2 := ⟨G.two, by rw [abs_of_pos (by norm_num)]; exact G.two_le⟩
theorem rp_half : Rp G (1 / 2) := ⟨G.half, by rw [abs_of_pos (by norm_num)]; linarith [G.two_le]⟩
theorem rp_neg {x : ℝ} (h : Rp G x) : Rp G (-x) := ⟨by rw [G.neg, h.1], by rw [abs_neg]; exact h.2⟩

theorem ad {x y : ℝ} (hx : Rp G x) (hy : Rp G y) : XF.ofReal G x + XF.ofReal G y = XF.ofReal G (x + y) := by
  rw [ofReal_fix hx, ofReal_fix hy]; rfl
theorem sb {x y : ℝ} (hx : Rp G x) (hy : Rp G y) : XF.ofReal G x - XF.ofReal G y = XF.ofReal G (x - y) := by
  rw [ofReal_fix hx, ofReal_fix hy, sub_eq_add_neg]; rfl
theorem ml {x y : ℝ} (hx : Rp G x) (hy : Rp G y) : XF.ofReal G x * XF.ofReal G y = XF.ofReal G (x * y) := by
  rw [ofReal_fix hx, ofReal_fix hy]; rfl
theorem dv {x y : ℝ} (hx : Rp G x) (hy : Rp G y) (h : y ≠ 0) : XF.ofReal G x / XF.ofReal G y = XF.ofReal G (x / y) := by
  rw [ofReal_fix hx, ofReal_fix hy]
  exact if_neg h
theorem ab {x : ℝ} (hx : Rp G x) : XF.abs (XF.ofReal G x) = XF.ofReal G |x| := by
  have h : Rp G |x| := by
    rcases abs_cases x with ⟨e, -⟩ | ⟨e, -⟩ <;> rw [e]
    · exact hx
    · exact rp_neg hx
  rw [ofReal_fix hx, ofReal_fix h]; rfl
theorem lt_rp {x y : ℝ} (hx : Rp G x) (hy : Rp G y) : XF.ofReal G x < XF.ofReal G y ↔ x < y := by
  rw [ofReal_fix hx, ofReal_fix hy]; exact lt_fin_iff
theorem inj_rp {x y : ℝ} (hx : Rp G x) (hy : Rp G y) (h : XF.ofReal G x = XF.ofReal G y) : x = y := by
  rw [ofReal_fix hx, ofReal_fix hy] at h
  exact (XF.fin.inj h)

/-- the golden section constant in the format -/
theorem gold_rp (G : Grid) : ∃ γ, Rp G γ ∧ (ofGrid G).gold = XF.ofReal G γ ∧ 1 / 4 ≤ γ ∧ γ ≤ 1 / 2 := by
  obtain ⟨γ, ⟨h, e⟩, e2, -, h2⟩ := gold_isFin G
  refine ⟨γ, h, by rw [e, ofReal_fix h], ?_, h2⟩
  rw [e2, ← G.quarter]
  refine G.mono _ _ ?_
  have : Real.sqrt 5 ≤ 5 / 2 := by rw [Real.sqrt_le_left (by norm_num)]; norm_num
  linarith

/-- zero at zero, infinite everywhere else -/
noncomputable def barrier (G : Grid) (t : XF G) : XF G := if t = XF.ofReal G 0 then XF.ofReal G 0 else .pinf

theorem lit_eq (q : ℚ) : (ofGrid G).lit q = XF.ofReal G (q : ℝ) := rfl
theorem lit_zero : (ofGrid G).lit 0 = XF.ofReal G 0 := by rw [lit_eq]; norm_num
theorem lit_two : (ofGrid G).lit 2 = XF.ofReal G 2 := by rw [lit_eq]; norm_num

/-- **C74 (Brent evaluates at NaN).** In every IEEE format: for the bracket (-1, 0, 1) and a function that is zero at zero and
`+inf` elsewhere (so it is never NaN and the bracket is proper), the second point at which `brent_line_search` evaluates the
function is NaN: the parabola through an infinite value is NaN and every comparison that could reject it is false. -/
theorem c74_brent_nan_wrong (G : Grid) :
    (∀ t, ¬ NaN (M := ofGrid G) (barrier G t)) ∧
    ∃ γ : XF G, (brent (M := ofGrid G) (barrier G) (XF.ofReal G (-1)) (XF.ofReal G 0) (XF.ofReal G 1) (barrier G (XF.ofReal G 0)) 2
      (XF.ofReal G 0) (XF.ofReal G 0)).2.2 = [XF.nan, γ] := by
  constructor
  · intro t h
    unfold barrier at h
    split_ifs at h
    · rw [ofReal_fix rp_zero] at h; exact absurd h (by simp [NaN, XF.key])
    · exact absurd h (by simp [NaN, XF.key])
  obtain ⟨γ, rγ, eγ, g1, g2⟩ := gold_rp G
  have r0 : Rp G 0 := rp_zero
  have r1 : Rp G 1 := rp_one
  have rm1 : Rp G (-1) := rp_neg rp_one
  have r2 : Rp G 2 := rp_two
  have hb0 : barrier G (XF.ofReal G 0) = XF.ofReal G 0 := if_pos rfl
  have hbγ : barrier G (XF.ofReal G γ) = .pinf := if_neg fun h => by have := inj_rp rγ r0 h; linarith
  refine ⟨XF.ofReal G γ, ?_⟩
  set s0 : BR (ofGrid G) := brInit (M := ofGrid G) (XF.ofReal G (-1)) (XF.ofReal G 0) (XF.ofReal G 1) (barrier G (XF.ofReal G 0))
    with hs0
  have hgol : brGolden s0 = (XF.ofReal G γ, XF.ofReal G 1) := by
    have e1 : s0.a + s0.b = XF.ofReal G 0 := by
      change XF.ofReal G (-1) + XF.ofReal G 1 = _
      rw [ad rm1 r1]; norm_num
    have e2 : XF.ofReal G 0 / XF.ofReal G 2 = XF.ofReal G 0 := by rw [dv r0 r2 (by norm_num)]; norm_num
    have e3 : s0.b - s0.x = XF.ofReal G 1 := by
      change XF.ofReal G 1 - XF.ofReal G 0 = _
      rw [sb r1 r0]; norm_num
    have hlt : ¬ (s0.x > (s0.a + s0.b) / (ofGrid G).lit 2) := by
      rw [e1]
      change ¬ (XF.ofReal G 0 / (ofGrid G).lit 2 < XF.ofReal G 0)
      rw [lit_two, e2, lt_rp r0 r0]; exact lt_irrefl _
    have e4 : ((ofGrid G).gold * (s0.b - s0.x) : XF G) = XF.ofReal G γ := by
      rw [e3, eγ, ml rγ r1, mul_one]
    unfold brGolden
    dsimp only
    rw [if_neg hlt]
    exact Prod.ext e4 e3
  have hm0 : brMove (M := ofGrid G) (XF.ofReal G 0) (XF.ofReal G 0) s0 = (XF.ofReal G γ, XF.ofReal G 1) := by
    unfold brMove
    dsimp only
    rw [if_neg, hgol]
    rintro ⟨h, -⟩
    have e1 : XF.abs s0.x * XF.ofReal G 0 + XF.ofReal G 0 = XF.ofReal G 0 := by
      change XF.abs (XF.ofReal G 0) * XF.ofReal G 0 + XF.ofReal G 0 = _
      rw [ab r0, abs_zero, ml r0 r0, mul_zero, ad r0 r0, add_zero]
    have e2 : XF.abs s0.e = XF.ofReal G 0 := by
      change XF.abs ((ofGrid G).lit 0) = _
      rw [lit_zero, ab r0, abs_zero]
    change XF.abs s0.x * XF.ofReal G 0 + XF.ofReal G 0 < XF.abs s0.e at h
    rw [e1, e2, lt_rp r0 r0] at h
    exact lt_irrefl _ h
  set s1 : BR (ofGrid G) := ⟨XF.ofReal G (-1), XF.ofReal G 0, XF.ofReal G γ, XF.ofReal G 0, XF.ofReal G γ, XF.ofReal G 0, .pinf,
    XF.ofReal G 0, XF.ofReal G γ, XF.ofReal G 1, [XF.ofReal G γ]⟩ with hs1
  have hstep0 : brStep (M := ofGrid G) (barrier G) (XF.ofReal G 0) (XF.ofReal G 0) s0 = s1 := by
    have eu : s0.x + XF.ofReal G γ = XF.ofReal G γ := by
      change XF.ofReal G 0 + XF.ofReal G γ = _
      rw [ad r0 rγ, zero_add]
    have hn1 : ¬ (XF.pinf : XF G) < s0.fx := pinf_not_lt _
    have hn2 : ¬ (XF.ofReal G γ < s0.x) := by
      change ¬ XF.ofReal G γ < XF.ofReal G 0
      rw [lt_rp rγ r0]; linarith
    have hw : eqv s0.w s0.x := by
      refine ⟨((0:ℝ) : EReal), ?_, ?_⟩ <;>
      · change XF.key (XF.ofReal G 0) = _
        rw [ofReal_fix r0]; rfl
    unfold brStep
    dsimp only
    rw [hm0]
    dsimp only
    rw [eu, hbγ, if_neg hn1]
    simp only [if_neg hn2]
    rw [if_pos (Or.inr hw), hs0, hs1]
    unfold brInit
    simp only [hb0]
  have hnan : ∀ x : XF G, XF.sub x XF.nan = XF.nan := fun x => by cases x <;> rfl
  have hpinf0 : XF.mul XF.pinf (XF.ofReal G 0) = XF.nan := by
    rw [ofReal_fix r0]
    change XF.infOf G 0 = _
    simp [XF.infOf]
  have hm1 : (brMove (M := ofGrid G) (XF.ofReal G 0) (XF.ofReal G 0) s1).1 = XF.nan := by
    have e1 : XF.abs s1.x * XF.ofReal G 0 + XF.ofReal G 0 = XF.ofReal G 0 := by
      change XF.abs (XF.ofReal G 0) * XF.ofReal G 0 + XF.ofReal G 0 = _
      rw [ab r0, abs_zero, ml r0 r0, mul_zero, ad r0 r0, add_zero]
    have e2 : XF.abs s1.e = XF.ofReal G 1 := by
      change XF.abs (XF.ofReal G 1) = _
      rw [ab r1, abs_one]
    have efw : (s1.fw - s1.fx : XF G) = XF.pinf := by
      change XF.sub XF.pinf (XF.ofReal G 0) = _
      rw [ofReal_fix r0]; rfl
    have exv : (s1.v - s1.x : XF G) = XF.ofReal G 0 := by
      change (XF.ofReal G 0 - XF.ofReal G 0 : XF G) = _
      rw [sb r0 r0, sub_zero]
    have hdiv : ∀ x y : XF G, x = XF.nan → XF.div x y = XF.nan := by rintro x y rfl; cases y <;> rfl
    have ep : ∀ z : XF G, (z - (s1.fw - s1.fx) * (s1.v - s1.x) * (s1.v - s1.x) : XF G) = XF.nan := by
      intro z
      rw [efw, exv]
      change XF.sub z (XF.mul (XF.mul XF.pinf (XF.ofReal G 0)) (XF.ofReal G 0)) = _
      rw [hpinf0]
      rw [show XF.mul XF.nan (XF.ofReal G 0) = (XF.nan : XF G) by cases XF.ofReal G 0 <;> rfl]
      exact hnan z
    have eq : ∀ z w : XF G, (w * (z - (s1.fw - s1.fx) * (s1.v - s1.x)) : XF G) = XF.nan := by
      intro z w
      rw [efw, exv]
      change XF.mul w (XF.sub z (XF.mul XF.pinf (XF.ofReal G 0))) = _
      rw [hpinf0, hnan]
      cases w <;> rfl
    have hx : ∀ x : XF G, (x + XF.nan : XF G) = XF.nan := fun x => by cases x <;> rfl
    unfold brMove
    dsimp only
    rw [if_pos]
    · erw [ep, eq]
      have h4 : (XF.nan / XF.nan : XF G) = XF.nan := rfl
      rw [if_neg]
      · exact h4
      · rw [h4]
        push Not
        refine ⟨?_, ?_, ?_, ?_⟩
        · rintro ⟨a, h, -⟩
          simp [XF.key] at h
        · erw [hx]; exact nan_lt _
        · erw [hx]; exact lt_nan _
        · exact lt_nan _
    · constructor
      · change XF.abs s1.x * XF.ofReal G 0 + XF.ofReal G 0 < XF.abs s1.e
        rw [e1, e2, lt_rp r0 r1]; norm_num
      · rintro ⟨a, h1, h2⟩
        change XF.key (XF.ofReal G γ) = _ at h1
        change XF.key (XF.ofReal G 0) = _ at h2
        rw [ofReal_fix rγ] at h1
        rw [ofReal_fix r0] at h2
        change (some (γ : EReal)) = _ at h1
        change (some ((0:ℝ) : EReal)) = _ at h2
        rw [← h2] at h1
        have := EReal.coe_injective (Option.some.inj h1)
        linarith
  have hlog1 : (brStep (M := ofGrid G) (barrier G) (XF.ofReal G 0) (XF.ofReal G 0) s1).log = [XF.nan, XF.ofReal G γ] := by
    rw [brStep_log]
    congr 1
    have : (s1.x + (brMove (M := ofGrid G) (XF.ofReal G 0) (XF.ofReal G 0) s1).1 : XF G) = s1.x + XF.nan := by rw [hm1]
    rw [this]
    change XF.add (XF.ofReal G 0) XF.nan = _
    cases XF.ofReal G 0 <;> rfl
  have rg1 : Rp G (G.rnd (1 + γ)) := by
    have := rnd_between r1.1 r2.1 (show 1 ≤ 1 + γ by linarith) (by linarith)
    exact ⟨G.idem _, by rw [abs_of_nonneg (by linarith)]; linarith [G.two_le]⟩
  have hc0 : brCond (M := ofGrid G) (XF.ofReal G 0) (XF.ofReal G 0) s0 := by
    change (XF.abs (XF.ofReal G (-1)) + XF.abs (XF.ofReal G 1)) * XF.ofReal G 0 + XF.ofReal G 0 <
      XF.abs (XF.ofReal G 1 - XF.ofReal G (-1))
    rw [ab rm1, ab r1, abs_neg, abs_one, ad r1 r1, sb r1 rm1]
    norm_num
    rw [ml r2 r0, mul_zero, ad r0 r0, add_zero, ab r2, lt_rp r0 (by rw [abs_of_pos (by norm_num)]; exact r2)]
    norm_num
  have hof : ∀ x, XF.ofReal G (G.rnd x) = XF.ofReal G x := fun x => by unfold XF.ofReal; simp only [G.idem]
  have hc1 : brCond (M := ofGrid G) (XF.ofReal G 0) (XF.ofReal G 0) s1 := by
    change (XF.abs (XF.ofReal G (-1)) + XF.abs (XF.ofReal G γ)) * XF.ofReal G 0 + XF.ofReal G 0 <
      XF.abs (XF.ofReal G γ - XF.ofReal G (-1))
    have hp := rnd_between r1.1 r2.1 (show 1 ≤ 1 + γ by linarith) (by linarith)
    rw [ab rm1, ab rγ, abs_neg, abs_one, abs_of_nonneg (by linarith), ad r1 rγ, sb rγ rm1,
      show γ - -1 = 1 + γ by ring, ← hof, ml rg1 r0, mul_zero, ad r0 r0, add_zero, ab rg1, abs_of_nonneg (by linarith),
      lt_rp r0 rg1]
    linarith
  unfold brent
  change (brLoop (M := ofGrid G) (barrier G) (XF.ofReal G 0) (XF.ofReal G 0) 2 s0).log = _
  simp only [brLoop]
  rw [if_pos hc0, hstep0, if_pos hc1, hlog1]

/-! ## the simplex -/

/-- two at one, one at zero, undefined (NaN) elsewhere -/
noncomputable def patchy (G : Grid) (x : Pt (ofGrid G) 1) : XF G :=
  if x 0 = XF.ofReal G 1 then XF.ofReal G 2 else if x 0 = XF.ofReal G 0 then XF.ofReal G 1 else .nan

/-- the parameters set by the constructor that matter here: `alpha = 1`, `sigma = 1/2` (downhill_simplex.h:119-122) -/
def IsDefault (G : Grid) (p : Params (ofGrid G)) : Prop := p.alpha = XF.ofReal G 1 ∧ p.sigma = XF.ofReal G (1 / 2)

/-- **C74 (the simplex loses its best value).** In every IEEE format there is a function of one variable, defined at the points
of the starting simplex, for which one iteration with the default parameters leaves NaN as the value of the best point, although
the value 1 found before is still in the simplex: `get_best` starts with the first point, and no comparison with its NaN value
is true. -/
theorem c74_simplex_nan_wrong (G : Grid) (p : Params (ofGrid G)) (hp : IsDefault G p) (garbage : Sx (ofGrid G) 1) :
    let s := restart (patchy G) (fun _ => XF.ofReal G 0) (XF.ofReal G 1) garbage
    s.values (getBest 1 s.values) = XF.ofReal G 1 ∧
    let t := (iterate (patchy G) p s).1
    t.values (getBest 1 t.values) = XF.nan ∧ t.values 1 = XF.ofReal G 1 := by
  have r0 : Rp G 0 := rp_zero
  have r1 : Rp G 1 := rp_one
  have rm1 : Rp G (-1) := rp_neg rp_one
  have r2 : Rp G 2 := rp_two
  have rh : Rp G (1 / 2) := rp_half
  obtain ⟨ea, es⟩ := hp
  have h01 : XF.ofReal G 0 ≠ XF.ofReal G 1 := fun h => by have := inj_rp r0 r1 h; norm_num at this
  intro s
  have hs0 : s.simplex 0 = fun _ => XF.ofReal G 1 := by
    funext j
    have : (j : Nat) = 0 := by omega
    have e : (XF.ofReal G 0 + XF.ofReal G 1 : XF G) = XF.ofReal G 1 := by rw [ad r0 r1, zero_add]
    simp [s, restart, forN, this, Function.update]
    exact e
  have hs1 : s.simplex 1 = fun _ => XF.ofReal G 0 := by
    simp [s, restart, forN, Function.update]
  have hv0 : s.values 0 = XF.ofReal G 2 := by
    have : s.values 0 = patchy G (s.simplex 0) := by simp [s, restart, forN, Function.update]
    rw [this, hs0]; simp [patchy]
  have hv1 : s.values 1 = XF.ofReal G 1 := by
    have : s.values 1 = patchy G (s.simplex 1) := by simp [s, restart, forN, Function.update]
    rw [this, hs1]; simp [patchy, h01]
  have hlt : s.values 1 < s.values 0 := by
    rw [hv0, hv1]
    exact (lt_rp r1 r2).2 (by norm_num)
  have hnl : ¬ s.values 0 < s.values 1 := lt_asymm' hlt
  have hbest : getBest 1 s.values = 1 := by
    simp [getBest, forRange, forN, hlt]
  have hworst : getWorst 1 s.values = 0 := by
    simp [getWorst, forRange, forN, hnl]
  refine ⟨by rw [hbest, hv1], ?_⟩
  intro t
  have hsc : (scan s 0).best = 1 ∧ (scan s 0).x0 = vadd (fun _ => (ofGrid G).lit 0) (s.simplex 1) := by
    have hh : s.values 0 < (ofGrid G).huge := by
      rw [hv0, ofReal_fix r2]
      exact ⟨_, _, rfl, rfl, EReal.coe_lt_top _⟩
    have : scan s 0 = scanStep s 0 1 (scanStep s 0 0
      { secondWorst := -(ofGrid G).huge, bestval := (ofGrid G).huge, best := 0, x0 := fun _ => (ofGrid G).lit 0 }) := rfl
    rw [this]
    unfold scanStep
    simp only [hh, hlt, if_true, ne_eq, not_true_eq_false, if_false, one_ne_zero, not_false_eq_true]
    split_ifs <;> exact ⟨rfl, rfl⟩
  -- the reflected point is -1
  set x0 : Pt (ofGrid G) 1 := smulR (scan s 0).x0 ((ofGrid G).lit 1 / (ofGrid G).lit ((1 : ℕ) : ℚ)) with hx0
  have ex0 : x0 = fun _ => XF.ofReal G 0 := by
    rw [hx0, hsc.2, hs1]
    funext j
    change ((ofGrid G).lit 0 + XF.ofReal G 0) * ((ofGrid G).lit 1 / (ofGrid G).lit ((1 : ℕ) : ℚ)) = _
    have el : (ofGrid G).lit 1 = XF.ofReal G 1 := by rw [lit_eq]; norm_num
    have el' : (ofGrid G).lit ((1 : ℕ) : ℚ) = XF.ofReal G 1 := by rw [lit_eq]; norm_num
    rw [lit_zero, el, el', ad r0 r0, dv r1 r1 (by norm_num), add_zero, div_one, ml r0 r1, zero_mul]
  set xr : Pt (ofGrid G) 1 := vsub (smulL ((ofGrid G).lit 1 + p.alpha) x0) (smulL p.alpha (s.simplex 0)) with hxr
  have exr : xr = fun _ => XF.ofReal G (-1) := by
    rw [hxr, ex0, hs0, ea]
    funext j
    change ((ofGrid G).lit 1 + XF.ofReal G 1) * XF.ofReal G 0 - XF.ofReal G 1 * XF.ofReal G 1 = _
    have el : (ofGrid G).lit 1 = XF.ofReal G 1 := by rw [lit_eq]; norm_num
    rw [el, ad r1 r1, show (1:ℝ) + 1 = 2 by norm_num, ml r2 r0, ml r1 r1, mul_zero, mul_one, sb r0 r1, zero_sub]
  have hfr : patchy G xr = .nan := by
    rw [exr]
    unfold patchy
    rw [if_neg fun h => by have := inj_rp rm1 r1 h; norm_num at this,
      if_neg fun h => by have := inj_rp rm1 r0 h; norm_num at this]
  have ht : t = shrink (patchy G) p.sigma 1 { s with evals := s.evals + 1 } := by
    change findNext (patchy G) p s = _
    unfold findNext
    dsimp only
    rw [hworst, ← hx0, ← hxr, hfr, if_neg (nan_lt _), if_neg (nan_lt _), if_neg (nan_lt _), hsc.1]
  have hsh : t = { ({ s with evals := s.evals + 1 } : Sx (ofGrid G) 1).put 0
      (vadd (s.simplex 1) (smulL p.sigma (vsub (s.simplex 0) (s.simplex 1))))
      (patchy G (vadd (s.simplex 1) (smulL p.sigma (vsub (s.simplex 0) (s.simplex 1))))) with evals := s.evals + 1 + 1 } := by
    rw [ht]
    simp [shrink, forN]
  have hxs : vadd (s.simplex 1) (smulL p.sigma (vsub (s.simplex 0) (s.simplex 1))) = fun _ => XF.ofReal G (1 / 2) := by
    rw [hs0, hs1, es]
    funext j
    change XF.ofReal G 0 + XF.ofReal G (1 / 2) * (XF.ofReal G 1 - XF.ofReal G 0) = _
    rw [sb r1 r0, sub_zero, ml rh r1, mul_one, ad r0 rh, zero_add]
  have hfs : patchy G (fun _ => XF.ofReal G (1 / 2)) = .nan := by
    unfold patchy
    rw [if_neg fun h => by have := inj_rp rh r1 h; norm_num at this,
      if_neg fun h => by have := inj_rp rh r0 h; norm_num at this]
  have ht0 : t.values 0 = .nan := by
    rw [hsh, hxs, hfs]
    simp [Sx.put]
  have ht1 : t.values 1 = XF.ofReal G 1 := by
    rw [hsh]
    simp [Sx.put, Function.update, hv1]
  have hb : getBest 1 t.values = 0 := by
    have : ¬ t.values 1 < t.values 0 := by rw [ht0]; exact lt_nan _
    simp [getBest, forRange, forN, this]
  exact ⟨by rw [hb, ht0], ht1⟩

/-- the hypotheses are met: the default parameters of `DownhillSimplex<1>` in `double` -/
example : IsDefault Grid.double ⟨XF.ofReal _ 1, XF.ofReal _ 2, XF.ofReal _ (1 / 2), XF.ofReal _ (1 / 2), XF.ofReal _ 0,
    XF.ofReal _ 0⟩ := ⟨rfl, rfl⟩

/-- the hypotheses of the domain theorems are met in `double` by the bracket (-1, 0, 1) -/
example : ∃ a x b : XF Grid.double, IsFin a (-1) ∧ IsFin x 0 ∧ IsFin b 1 ∧ (1:ℝ) - -1 ≤ Grid.double.big :=
  ⟨_, _, _, ⟨rp_neg rp_one, rfl⟩, ⟨rp_zero, rfl⟩, ⟨rp_one, rfl⟩, by have := Grid.double.two_le; linarith⟩

end TooN.Mach
