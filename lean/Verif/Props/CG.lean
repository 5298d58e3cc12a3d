import Verif.Model.CG
import Verif.Props.Brent
import Mathlib.LinearAlgebra.Matrix.DotProduct
/-!
# C48: conjugate gradient
-/
set_option linter.unusedSectionVars false
namespace TooN.CG
open scoped Classical

variable {n : Nat}

/-! ## bracketing -/

/-- what a returned bracket satisfies: `φ` is the function along the line, `a0` the value given for the origin -/
structure Good (φ : ℝ → Option ℝ) (a0 : Option ℝ) (k : Bracket) : Prop where
  o0 : 0 ≤ k.a
  o1 : k.a < k.b
  o2 : k.b < k.c
  vb : k.bv = φ k.b
  vc : k.cv = φ k.c
  va : (k.a = 0 ∧ k.av = a0) ∨ k.av = φ k.a
  low : ltO k.bv a0

theorem halveNan_ret {φ : ℝ → Option ℝ} {fuel : Nat} {l : ℝ} {r : ℝ × ℝ} (hl : 0 < l) (h : halveNan φ fuel l = .ret r) :
    0 < r.1 ∧ φ r.1 = some r.2 := by
  induction fuel generalizing l with
  | zero => simp [halveNan] at h
  | succ k ih =>
    unfold halveNan at h
    split at h
    · rename_i v hv
      cases h
      exact ⟨hl, hv⟩
    · exact ih (by linarith) h

theorem backLoop_ret {φ : ℝ → Option ℝ} {lg bad : ℝ} {fuel : Nat} {l : ℝ} {r : ℝ × ℝ} (hl : 0 < l) (hb : lg < bad)
    (h : backLoop φ lg bad fuel l = .ret r) : lg < r.1 ∧ φ r.1 = some r.2 := by
  induction fuel generalizing l with
  | zero => simp [backLoop] at h
  | succ k ih =>
    unfold backLoop at h
    simp only at h
    split at h
    · rename_i v hv
      cases h
      refine ⟨?_, hv⟩
      have : 0 < (bad - lg) * (l / 2) := mul_pos (by linarith) (by linarith)
      simp only
      linarith
    · exact ih (by linarith) h

theorem downLoop_ret {φ : ℝ → Option ℝ} {fuel : Nat} {l a av bv v0 : ℝ} {k : Bracket} (h0 : 0 ≤ a) (hal : a < l)
    (hb : φ l = some bv) (hva : (a = 0 ∧ av = v0) ∨ φ a = some av) (hlow : bv < v0)
    (h : downLoop φ fuel l a av bv = .ret k) : Good φ (some v0) k := by
  induction fuel generalizing l a av bv with
  | zero => simp [downLoop] at h
  | succ m ih =>
    unfold downLoop at h
    simp only at h
    split at h
    · rename_i hc
      generalize hr : backLoop φ l (l * 2) m 1 = r at h
      cases r with
      | ret r =>
        simp only [Res.bind] at h
        cases h
        obtain ⟨q1, q2⟩ := backLoop_ret one_pos (by linarith) hr
        refine ⟨h0, hal, q1, hb.symm, q2.symm, ?_, hlow⟩
        exact hva.imp (fun h => ⟨h.1, by rw [h.2]⟩) (fun h => h.symm)
      | running => simp [Res.bind] at h
      | assertFail => simp [Res.bind] at h
      | nanInBrent => simp [Res.bind] at h
    · rename_i cv hc
      split at h
      · cases h
        refine ⟨h0, hal, ?_, hb.symm, hc.symm, ?_, hlow⟩
        · simp only; linarith
        · exact hva.imp (fun h => ⟨h.1, by rw [h.2]⟩) (fun h => h.symm)
      · rename_i hle
        exact ih (by linarith) (by linarith) hc (Or.inr hb) (by linarith) h

theorem upLoop_ret {φ : ℝ → Option ℝ} {a0 : Option ℝ} {zeps : ℝ} {fuel : Nat} {l : ℝ} {cv : Option ℝ} {k : Bracket}
    (hl : 0 < l) (hc : φ l = cv) (h : upLoop φ a0 zeps fuel l l cv = .ret k) : k = Bracket.zeros ∨ Good φ a0 k := by
  induction fuel generalizing l cv with
  | zero => simp [upLoop] at h
  | succ m ih =>
    unfold upLoop at h
    simp only at h
    split at h
    · rename_i hlt
      cases h
      refine Or.inr ⟨le_rfl, ?_, ?_, rfl, hc.symm, Or.inl ⟨rfl, rfl⟩, hlt⟩
      · simp only; linarith
      · simp only; linarith
    · split at h
      · cases h; exact Or.inl rfl
      · exact ih (by linarith) rfl h

/-- The returned abscissae are in order, the values are the function's (NaN included), and the middle value is below the value
given for the origin; or all zeros are returned.  This holds for every function with NaNs anywhere. -/
theorem c48_bracket (φ : ℝ → Option ℝ) (fuel : Nat) (a0 : Option ℝ) (lambda0 zeps : ℝ) (hl : 0 < lambda0) (k : Bracket)
    (h : bracketForward φ fuel a0 lambda0 zeps = .ret k) : k = Bracket.zeros ∨ Good φ a0 k := by
  unfold bracketForward at h
  generalize hr : halveNan φ fuel lambda0 = r at h
  cases r with
  | ret r =>
    obtain ⟨q1, q2⟩ := halveNan_ret hl hr
    simp only [Res.bind] at h
    cases a0 with
    | none => exact upLoop_ret q1 q2 h
    | some a =>
      simp only at h
      split at h
      · rename_i hlt
        exact Or.inr (downLoop_ret le_rfl q1 q2 (Or.inl ⟨rfl, rfl⟩) hlt h)
      · exact upLoop_ret q1 q2 h
  | running => simp [Res.bind] at h
  | assertFail => simp [Res.bind] at h
  | nanInBrent => simp [Res.bind] at h

/-- "all zeros" means a 3×2 matrix of zeros, as documented (conjugate_gradient.h:165) -/
theorem c48_zeros : Bracket.zeros = ⟨0, some 0, 0, some 0, 0, some 0⟩ := rfl

/-- A step into a region where the function is NaN is halved until the function is defined: the accepted step is the first of
`λ, λ/2, λ/4, …` at which it is. -/
theorem c48_nan_halving (φ : ℝ → Option ℝ) (fuel : Nat) (l : ℝ) (r : ℝ × ℝ) :
    halveNan φ fuel l = .ret r ↔
      ∃ j, j < fuel ∧ r.1 = l / 2 ^ j ∧ φ r.1 = some r.2 ∧ ∀ i, i < j → φ (l / 2 ^ i) = none := by
  induction fuel generalizing l with
  | zero => simp [halveNan]
  | succ m ih =>
    unfold halveNan
    cases h : φ l with
    | some v =>
      simp only
      constructor
      · intro e; cases e
        exact ⟨0, by omega, by simp, h, by intro i hi; omega⟩
      · rintro ⟨j, -, h1, h2, h3⟩
        rcases Nat.eq_zero_or_pos j with rfl | hj
        · rw [pow_zero, div_one] at h1
          obtain ⟨x, y⟩ := r
          simp only at h1 h2
          subst h1
          rw [h] at h2
          cases h2; rfl
        · have := h3 0 hj
          rw [pow_zero, div_one, h] at this
          cases this
    | none =>
      simp only
      rw [ih]
      have e : ∀ i, l / 2 / 2 ^ i = l / 2 ^ (i + 1) := fun i => by rw [pow_succ]; field_simp
      constructor
      · rintro ⟨j, a, b, c, d⟩
        refine ⟨j + 1, by omega, by rw [b, e], c, fun i hi => ?_⟩
        rcases i with _ | i
        · rw [pow_zero, div_one, h]
        · rw [← e]; exact d i (by omega)
      · rintro ⟨j, a, b, c, d⟩
        rcases j with _ | j
        · rw [pow_zero, div_one] at b
          rw [b, h] at c; cases c
        · exact ⟨j, by omega, by rw [b, e], c, fun i hi => by rw [e]; exact d (i + 1) (by omega)⟩

/-- In particular the halving ends for every function that is defined on some interval `(0, δ)`. -/
theorem c48_nan_ends (φ : ℝ → Option ℝ) (l δ : ℝ) (hl : 0 < l) (hδ : 0 < δ) (h : ∀ t, 0 < t → t < δ → φ t ≠ none) :
    ∃ fuel, ∀ f, fuel ≤ f → ∃ r, halveNan φ f l = .ret r := by
  classical
  obtain ⟨N, hN⟩ := exists_pow_lt_of_lt_one (show 0 < δ / l by positivity) (show (2:ℝ)⁻¹ < 1 by norm_num)
  have hx : ∃ j, φ (l / 2 ^ j) ≠ none := ⟨N, h _ (by positivity) (by
    rw [inv_pow, lt_div_iff₀ hl] at hN
    rw [div_eq_inv_mul]; exact hN)⟩
  refine ⟨Nat.find hx + 1, fun f hf => ?_⟩
  obtain ⟨v, hv⟩ := Option.ne_none_iff_exists'.1 (Nat.find_spec hx)
  refine ⟨(l / 2 ^ Nat.find hx, v), (c48_nan_halving φ f l _).2 ⟨Nat.find hx, by omega, rfl, hv, fun i hi => ?_⟩⟩
  by_contra hc
  exact Nat.find_min hx hi hc

/-- For a function without NaNs whose values at successive doublings of the initial step differ, the triple really brackets a
minimum: `f(a) > f(b) < f(c)`. -/
theorem c48_bracket_strict (p : ℝ → ℝ) (fuel : Nat) (lambda0 zeps : ℝ) (hl : 0 < lambda0)
    (hne : ∀ j : Nat, p (2 ^ (j + 1) * lambda0) ≠ p (2 ^ j * lambda0)) (k : Bracket)
    (h : bracketForward (fun t => some (p t)) fuel (some (p 0)) lambda0 zeps = .ret k) :
    k = Bracket.zeros ∨ (0 ≤ k.a ∧ k.a < k.b ∧ k.b < k.c ∧ k.av = some (p k.a) ∧ k.bv = some (p k.b) ∧
      k.cv = some (p k.c) ∧ p k.b < p k.a ∧ p k.b < p k.c) := by
  have hdown : ∀ fuel (j : Nat) l a, l = 2 ^ j * lambda0 → 0 ≤ a → a < l → p l < p a →
      downLoop (fun t => some (p t)) fuel l a (p a) (p l) = .ret k →
      0 ≤ k.a ∧ k.a < k.b ∧ k.b < k.c ∧ k.av = some (p k.a) ∧ k.bv = some (p k.b) ∧
      k.cv = some (p k.c) ∧ p k.b < p k.a ∧ p k.b < p k.c := by
    intro fuel
    induction fuel with
    | zero => intro j l a _ _ _ _ h; simp [downLoop] at h
    | succ m ih =>
      intro j l a hj h0 h1 h2 h
      unfold downLoop at h
      simp only at h
      split at h
      · rename_i hlt
        cases h
        exact ⟨h0, h1, by simp only; linarith, rfl, rfl, rfl, h2, hlt⟩
      · rename_i hle
        have e : l * 2 = 2 ^ (j + 1) * lambda0 := by rw [hj]; ring
        refine ih (j + 1) (l * 2) l e (by linarith) (by linarith) ?_ h
        have := hne j
        rw [← e, ← hj] at this
        exact lt_of_le_of_ne (not_lt.1 hle) this
  have hup : ∀ fuel l, 0 < l → p 0 ≤ p l →
      upLoop (fun t => some (p t)) (some (p 0)) zeps fuel l l (some (p l)) = .ret k → k = Bracket.zeros ∨
      (0 ≤ k.a ∧ k.a < k.b ∧ k.b < k.c ∧ k.av = some (p k.a) ∧ k.bv = some (p k.b) ∧
      k.cv = some (p k.c) ∧ p k.b < p k.a ∧ p k.b < p k.c) := by
    intro fuel
    induction fuel with
    | zero => intro l _ _ h; simp [upLoop] at h
    | succ m ih =>
      intro l h0 h1 h
      unfold upLoop at h
      simp only at h
      split at h
      · rename_i hlt
        cases h
        have hlt' : p (l / 2) < p 0 := hlt
        exact Or.inr ⟨le_rfl, by simp only; linarith, by simp only; linarith, rfl, rfl, rfl, hlt', lt_of_lt_of_le hlt' h1⟩
      · rename_i hle
        split at h
        · cases h; exact Or.inl rfl
        · exact ih (l / 2) (by linarith) (not_lt.1 hle) h
  unfold bracketForward at h
  cases fuel with
  | zero => simp [halveNan, Res.bind] at h
  | succ m =>
    simp only [halveNan, Res.bind] at h
    split at h
    · rename_i hlt
      exact Or.inr (hdown _ 0 _ _ (by simp) le_rfl hl hlt h)
    · rename_i hle
      exact hup _ _ hl (not_lt.1 hle) h

/-- The search returns if the function goes up somewhere along the doublings of the initial step, or does not go down at the
initial step (`zeps > 0`). -/
theorem c48_bracket_returns (p : ℝ → ℝ) (lambda0 zeps : ℝ) (hl : 0 < lambda0) (hz : 0 < zeps)
    (h : p 0 ≤ p lambda0 ∨ ∃ k : Nat, p (2 ^ k * lambda0) < p (2 ^ (k + 1) * lambda0)) :
    ∃ fuel k, bracketForward (fun t => some (p t)) fuel (some (p 0)) lambda0 zeps = .ret k := by
  have hup : ∀ m l cv, l < 2 ^ m * zeps →
      ∃ k, upLoop (fun t => some (p t)) (some (p 0)) zeps m.succ l l cv = .ret k := by
    intro m
    induction m with
    | zero =>
      intro l cv hlt
      unfold upLoop
      simp only
      split
      · exact ⟨_, rfl⟩
      · rw [if_pos (by linarith)]; exact ⟨_, rfl⟩
    | succ m ih =>
      intro l cv hlt
      unfold upLoop
      simp only
      split
      · exact ⟨_, rfl⟩
      · split
        · exact ⟨_, rfl⟩
        · exact ih (l / 2) _ (by rw [pow_succ] at hlt; linarith)
  by_cases hd : p lambda0 < p 0
  · have h' := h.resolve_left (not_le.2 hd)
    have hdown : ∀ k : Nat, ∀ l a av, p (2 ^ k * l) < p (2 ^ (k + 1) * l) →
        ∃ K, downLoop (fun t => some (p t)) (k + 1) l a av (p l) = .ret K := by
      intro k
      induction k with
      | zero =>
        intro l a av hlt
        unfold downLoop
        simp only
        rw [if_pos (by simpa [mul_comm] using hlt)]
        exact ⟨_, rfl⟩
      | succ k ih =>
        intro l a av hlt
        unfold downLoop
        simp only
        split
        · exact ⟨_, rfl⟩
        · refine ih (l * 2) _ _ ?_
          rw [show 2 ^ k * (l * 2) = 2 ^ (k + 1) * l by ring, show 2 ^ (k + 1) * (l * 2) = 2 ^ (k + 1 + 1) * l by ring]
          exact hlt
    obtain ⟨k, hk⟩ := h'
    obtain ⟨K, hK⟩ := hdown k lambda0 0 (p 0) hk
    refine ⟨k + 1, K, ?_⟩
    unfold bracketForward
    simp only [halveNan, Res.bind]
    rw [if_pos hd]
    exact hK
  · obtain ⟨m, hm⟩ := pow_unbounded_of_one_lt (lambda0 / zeps) (one_lt_two)
    rw [div_lt_iff₀ hz] at hm
    obtain ⟨K, hK⟩ := hup m lambda0 (some (p lambda0)) hm
    refine ⟨m.succ, K, ?_⟩
    unfold bracketForward
    simp only [halveNan, Res.bind]
    rw [if_neg hd]
    exact hK

/-- There is no other bound: on a function that goes down at the initial step and never goes up along the doublings, the
search does not return. -/
theorem c48_bracket_never_returns_wrong (p : ℝ → ℝ) (lambda0 zeps : ℝ) (fuel : Nat) (hd : p lambda0 < p 0)
    (h : ∀ k : Nat, p (2 ^ (k + 1) * lambda0) ≤ p (2 ^ k * lambda0)) (k : Bracket) :
    bracketForward (fun t => some (p t)) fuel (some (p 0)) lambda0 zeps ≠ .ret k := by
  have hdown : ∀ fuel (j : Nat) a av,
      downLoop (fun t => some (p t)) fuel (2 ^ j * lambda0) a av (p (2 ^ j * lambda0)) = .running := by
    intro fuel
    induction fuel with
    | zero => intro j a av; rfl
    | succ m ih =>
      intro j a av
      unfold downLoop
      simp only
      rw [show 2 ^ j * lambda0 * 2 = 2 ^ (j + 1) * lambda0 by ring, if_neg (not_lt.2 (h j))]
      exact ih (j + 1) _ _
  unfold bracketForward
  cases fuel with
  | zero => simp [halveNan, Res.bind]
  | succ m =>
    simp only [halveNan, Res.bind]
    rw [if_pos hd]
    have := hdown (m + 1) 0 0 (p 0)
    simp only [pow_zero, one_mul] at this
    rw [this]
    intro h; cases h

/-! ## one iteration -/

/-- what holds between iterations -/
structure Inv (f : Pt n → Option ℝ) (s : St n) : Prop where
  mh : s.minusH = -s.h
  vy : s.y = f s.x
  lam : 0 < s.lambda0
  gh : s.g = 0 → s.h = 0
  tol : 0 ≤ s.tolerance
  eps : 0 ≤ s.epsilon

theorem line_eq (f : Pt n → Option ℝ) (s : St n) (h : s.minusH = -s.h) (t : ℝ) : line f s t = f (s.x - t • s.h) := by
  unfold line; rw [h, smul_neg, sub_eq_add_neg]

/-- what one call of `find_next_point` changes -/
structure Moved (f : Pt n → Option ℝ) (s s' : St n) : Prop where
  keep : s'.g = s.g ∧ s'.h = s.h ∧ s'.minusH = s.minusH ∧ s'.oldG = s.oldG ∧ s'.oldH = s.oldH ∧
    s'.tolerance = s.tolerance ∧ s'.epsilon = s.epsilon ∧ s'.maxIterations = s.maxIterations ∧ s'.lambda0 = s.lambda0
  oldX : s'.oldX = s.x
  oldY : s'.oldY = s.y
  its : s'.iterations = s.iterations + 1
  vy : s'.y = f s'.x
  dir : ∃ t : ℝ, 0 ≤ t ∧ s'.x = s.x - t • s.h
  down : (s'.x = s.x ∧ s'.y = s.y) ∨ ltO s'.y s.y

/-- One line search: the new point lies on the search ray, the recorded value is the function's value there, and either nothing
moved or the value decreased strictly; the old point and value are kept and the iteration is counted.  This covers every function,
NaNs included. -/
theorem c48_descent (f : Pt n → Option ℝ) (fuel : Nat) (s s' : St n) (hi : Inv f s) (h : findNext f fuel s = .ret s') :
    Moved f s s' := by
  obtain ⟨mh, vy, lam, -, -, -⟩ := hi
  unfold findNext at h
  simp only at h
  generalize hr : bracketForward (line f s) fuel s.y s.lambda0 s.bracketEpsilon = r at h
  cases r with
  | running => simp [Res.bind] at h
  | assertFail => simp [Res.bind] at h
  | nanInBrent => simp [Res.bind] at h
  | ret k =>
    simp only [Res.bind] at h
    rcases c48_bracket _ _ _ _ _ lam k hr with rfl | hg
    · rw [if_pos (by simp [Bracket.zeros])] at h
      cases h
      exact ⟨⟨rfl, rfl, rfl, rfl, rfl, rfl, rfl, rfl, rfl⟩, rfl, rfl, rfl, vy, ⟨0, le_rfl, by simp⟩, Or.inl ⟨rfl, rfl⟩⟩
    · obtain ⟨o0, o1, o2, vb, vc, va, low⟩ := hg
      rw [if_neg (by rintro ⟨e1, e2, -⟩; linarith), if_neg (by linarith), if_neg (by simp [o1, o2])] at h
      split at h
      · cases h
      · split at h
        · cases h
        · rename_i hnan
          push Not at hnan
          split at h
          · cases h
          · split at h
            · cases h
            · cases h
              have hbv : k.bv = some (k.bv.getD 0) := by
                rcases hk : k.bv with _ | v
                · rw [hk] at low
                  exact absurd low (by unfold ltO; simp)
                · rfl
              have hb' : k.bv.getD 0 = (line f s k.b).getD 0 := by rw [vb]
              have hbest := Line.c46_best (fun t => (line f s t).getD 0) k.a k.b k.c s.lsMaxIterations s.lsTolerance
                s.lsEpsilon o1.le o2.le
              beta_reduce at hbest
              rw [← hb'] at hbest
              generalize Line.brent (fun t => (line f s t).getD 0) k.a k.b k.c (k.bv.getD 0) s.lsMaxIterations
                s.lsTolerance s.lsEpsilon = m at *
              obtain ⟨b1, b2, b3, b4, b5, b6⟩ := hbest
              have hval : some m.2.1 = f (s.x - m.1 • s.h) := by
                rw [← line_eq f s mh, b1]
                rcases List.mem_append.1 b5 with hm | hm
                · obtain ⟨v, hv⟩ := Option.ne_none_iff_exists'.1 (hnan _ hm)
                  rw [hv]; rfl
                · rw [List.mem_singleton.1 hm, ← vb, ← hbv]
              refine ⟨⟨rfl, rfl, rfl, rfl, rfl, rfl, rfl, rfl, rfl⟩, rfl, rfl, rfl, hval, ⟨m.1, by linarith, rfl⟩, Or.inr ?_⟩
              simp only
              rw [hbv] at low
              rcases hy : s.y with _ | y
              · rw [hy] at low; exact absurd low (by unfold ltO; simp)
              · rw [hy] at low
                exact lt_of_le_of_lt b4 low

/-- With NaN-free functions without equal values at successive doublings of the initial step, no assertion fails (and no NaN is met). -/
theorem c48_asserts (p : Pt n → ℝ) (fuel : Nat) (s : St n) (hi : Inv (fun x => some (p x)) s)
    (hne : ∀ j : Nat, p (s.x - ((2 : ℝ) ^ (j + 1) * s.lambda0) • s.h) ≠ p (s.x - ((2 : ℝ) ^ j * s.lambda0) • s.h)) :
    findNext (fun x => some (p x)) fuel s = .running ∨ ∃ s', findNext (fun x => some (p x)) fuel s = .ret s' := by
  obtain ⟨mh, vy, lam, -, -, -⟩ := hi
  have hline : line (fun x => some (p x)) s = fun t => some (p (s.x - t • s.h)) := by
    funext t; rw [line_eq _ _ mh]
  have hy : s.y = some ((fun t : ℝ => p (s.x - t • s.h)) 0) := by rw [vy]; simp
  unfold findNext
  simp only [hline, hy]
  generalize hr : bracketForward (fun t => some (p (s.x - t • s.h))) fuel (some (p (s.x - (0 : ℝ) • s.h))) s.lambda0
    s.bracketEpsilon = r
  cases r with
  | running => exact Or.inl rfl
  | assertFail =>
    exfalso
    unfold bracketForward at hr
    cases fuel with
    | zero => simp [halveNan, Res.bind] at hr
    | succ m =>
      have hd : ∀ m l a av bv, downLoop (fun t => some (p (s.x - t • s.h))) m l a av bv ≠ .assertFail := by
        intro m
        induction m with
        | zero => intro l a av bv h; cases h
        | succ m ih =>
          intro l a av bv
          unfold downLoop
          simp only
          split
          · intro h; cases h
          · exact ih _ _ _ _
      have hu : ∀ a0 m l c cv, upLoop (fun t => some (p (s.x - t • s.h))) a0 s.bracketEpsilon m l c cv ≠ .assertFail := by
        intro a0 m
        induction m with
        | zero => intro l c cv h; cases h
        | succ m ih =>
          intro l c cv
          unfold upLoop
          simp only
          split
          · intro h; cases h
          · split
            · intro h; cases h
            · exact ih _ _ _
      simp only [halveNan, Res.bind] at hr
      split at hr
      · exact hd _ _ _ _ _ hr
      · exact hu _ _ _ _ _ hr
  | nanInBrent =>
    exfalso
    unfold bracketForward at hr
    cases fuel with
    | zero => simp [halveNan, Res.bind] at hr
    | succ m =>
      have hd : ∀ m l a av bv, downLoop (fun t => some (p (s.x - t • s.h))) m l a av bv ≠ .nanInBrent := by
        intro m
        induction m with
        | zero => intro l a av bv h; cases h
        | succ m ih =>
          intro l a av bv
          unfold downLoop
          simp only
          split
          · intro h; cases h
          · exact ih _ _ _ _
      have hu : ∀ a0 m l c cv, upLoop (fun t => some (p (s.x - t • s.h))) a0 s.bracketEpsilon m l c cv ≠ .nanInBrent := by
        intro a0 m
        induction m with
        | zero => intro l c cv h; cases h
        | succ m ih =>
          intro l c cv
          unfold upLoop
          simp only
          split
          · intro h; cases h
          · split
            · intro h; cases h
            · exact ih _ _ _
      simp only [halveNan, Res.bind] at hr
      split at hr
      · exact hd _ _ _ _ _ hr
      · exact hu _ _ _ _ _ hr
  | ret k =>
    right
    simp only [Res.bind]
    rcases c48_bracket_strict (fun t => p (s.x - t • s.h)) fuel s.lambda0 s.bracketEpsilon lam hne k hr with
      rfl | ⟨o0, o1, o2, va, vb, vc, hlt1, hlt2⟩
    · rw [if_pos (by simp [Bracket.zeros])]; exact ⟨_, rfl⟩
    · rw [if_neg (by rintro ⟨e1, e2, -⟩; linarith), if_neg (by linarith), if_neg (by simp [o1, o2]),
        if_neg (by rw [va, vb, vc]; simp only [ltO, not_and, not_lt, not_forall, not_le]; exact ⟨hlt1, hlt2⟩)]
      have hbest := Line.c46_best (fun t => p (s.x - t • s.h)) k.a k.b k.c s.lsMaxIterations s.lsTolerance
        s.lsEpsilon o1.le o2.le
      simp only [vb, Option.getD_some] at hbest ⊢
      obtain ⟨b1, b2, b3, b4, b5, b6⟩ := hbest
      rw [if_neg (by simp), if_neg (not_not.2 ⟨b2, b3⟩), if_neg (not_not.2 b4)]
      exact ⟨_, rfl⟩

/-- An assertion fails on the simplest of functions: `x²/6` from the starting point `3` has equal values at the steps 2 and 4, so
the bracket returned is `(2, 4, 8)` with `f(a) = f(b)`. -/
theorem c48_assert_fails_wrong (garbage : St 1) (fuel : Nat) :
    iterate (fun x => some (x 0 ^ 2 / 6)) (fun x => fun _ => x 0 / 3) (fuel + 3)
      (construct garbage (fun _ => 3) (fun x => some (x 0 ^ 2 / 6)) (fun x => fun _ => x 0 / 3)) = .assertFail := by
  have hline : line (fun x : Pt 1 => some (x 0 ^ 2 / 6))
      (construct garbage (fun _ => 3) (fun x => some (x 0 ^ 2 / 6)) (fun x => fun _ => x 0 / 3)) =
      fun t => some ((3 - t) ^ 2 / 6) := by
    funext t
    simp [line, construct, init]
    ring
  have hb : bracketForward (fun t => some ((3 - t) ^ 2 / 6)) (fuel + 3) (some (3 ^ 2 / 6)) 1 (10⁻¹ ^ 20) =
      .ret { a := 2, av := some (1 / 6), b := 4, bv := some (1 / 6), c := 8, cv := some (25 / 6) } := by
    unfold bracketForward
    simp only [halveNan, Res.bind]
    rw [if_pos (by norm_num)]
    unfold downLoop
    simp only
    rw [if_neg (by norm_num)]
    unfold downLoop
    simp only
    rw [if_neg (by norm_num)]
    unfold downLoop
    simp only
    rw [if_pos (by norm_num)]
    norm_num
  unfold iterate findNext
  simp only [hline]
  have e : bracketForward (fun t => some ((3 - t) ^ 2 / 6)) (fuel + 3)
      (construct garbage (fun _ => 3) (fun x => some (x 0 ^ 2 / 6)) (fun x => fun _ => x 0 / 3)).y
      (construct garbage (fun _ => 3) (fun x => some (x 0 ^ 2 / 6)) (fun x => fun _ => x 0 / 3)).lambda0
      (construct garbage (fun _ => 3) (fun x => some (x 0 ^ 2 / 6)) (fun x => fun _ => x 0 / 3)).bracketEpsilon =
      .ret { a := 2, av := some (1 / 6), b := 4, bv := some (1 / 6), c := 8, cv := some (25 / 6) } := hb
  rw [e]
  simp only [Res.bind]
  rw [if_neg (by norm_num), if_neg (by norm_num), if_neg (by norm_num), if_pos (by simp [ltO])]

/-- The recovery from NaN does not work: the point it falls back to lies beyond the middle point (so the case `c < b` that is
meant to handle it is never taken, see `c48_bracket`), and where the function still decreases there an assertion fails.  Here
`f(x) = -x` for `x < 3` and NaN from 3 on. -/
theorem c48_nan_assert_wrong (garbage : St 1) (fuel : Nat) :
    iterate (fun x => if x 0 < 3 then some (-x 0) else none) (fun _ => fun _ => -1) (fuel + 4)
      (construct garbage (fun _ => 0) (fun x => if x 0 < 3 then some (-x 0) else none) (fun _ => fun _ => -1)) =
      .assertFail := by
  have hline : line (fun x : Pt 1 => if x 0 < 3 then some (-x 0) else none)
      (construct garbage (fun _ => 0) (fun x => if x 0 < 3 then some (-x 0) else none) (fun _ => fun _ => -1)) =
      fun t => if t < 3 then some (-t) else none := by
    funext t
    simp [line, construct, init]
  have hb : bracketForward (fun t => if t < 3 then some (-t) else none) (fuel + 4) (some (-0)) 1 (10⁻¹ ^ 20) =
      .ret { a := 1, av := some (-1), b := 2, bv := some (-2), c := 5 / 2, cv := some (-(5 / 2)) } := by
    unfold bracketForward
    simp only [halveNan]
    rw [if_pos (by norm_num)]
    simp only [Res.bind]
    rw [if_pos (by norm_num)]
    unfold downLoop
    simp only
    rw [if_pos (by norm_num)]
    simp only
    rw [if_neg (by norm_num)]
    unfold downLoop
    simp only
    rw [if_neg (by norm_num)]
    simp only
    unfold backLoop
    simp only
    rw [if_neg (by norm_num)]
    simp only
    unfold backLoop
    simp only
    rw [if_pos (by norm_num)]
    simp only [Res.bind]
    norm_num
  unfold iterate findNext
  simp only [hline]
  have e : bracketForward (fun t => if t < 3 then some (-t) else none) (fuel + 4)
      (construct garbage (fun _ => 0) (fun x : Pt 1 => if x 0 < 3 then some (-x 0) else none) (fun _ => fun _ => -1)).y
      (construct garbage (fun _ => 0) (fun x : Pt 1 => if x 0 < 3 then some (-x 0) else none) (fun _ => fun _ => -1)).lambda0
      (construct garbage (fun _ => 0) (fun x : Pt 1 => if x 0 < 3 then some (-x 0) else none)
        (fun _ => fun _ => -1)).bracketEpsilon =
      .ret { a := 1, av := some (-1), b := 2, bv := some (-2), c := 5 / 2, cv := some (-(5 / 2)) } := by
    rw [← hb]
    simp [construct, init]
  rw [e]
  simp only [Res.bind]
  rw [if_neg (by norm_num), if_neg (by norm_num), if_neg (by norm_num), if_pos (by simp [ltO]; norm_num)]

/-! ## direction update -/

/-- The update is Polak-Ribière: `γ = (g·g - g_old·g)/(g_old·g_old)`, `h = g + γ h_old`; it divides by zero exactly when the old
gradient is zero. -/
theorem c48_polak_ribiere (s : St n) (grad : Pt n) :
    (updatePR s grad = none ↔ s.g = 0) ∧
    ∀ s', updatePR s grad = some s' →
      s'.g = grad ∧ s'.oldG = s.g ∧ s'.oldH = s.h ∧ s'.minusH = -s'.h ∧ s'.x = s.x ∧ s'.y = s.y ∧
      s'.h = grad + ((grad ⬝ᵥ (grad - s.g)) / (s.g ⬝ᵥ s.g)) • s.h := by
  unfold updatePR
  constructor
  · split
    · rename_i h; simpa using dotProduct_self_eq_zero.1 h
    · rename_i h; simpa using fun h' => h (dotProduct_self_eq_zero.2 h')
  · intro s' h
    split at h
    · cases h
    · cases h
      refine ⟨rfl, rfl, rfl, rfl, rfl, rfl, ?_⟩
      simp only [dotProduct_sub, dotProduct_comm grad s.g]

/-- After an exact line search (the new gradient is orthogonal to the direction searched) the new direction is a descent direction:
its slope is `g·h = g·g`. -/
theorem c48_descent_direction (s s' : St n) (grad : Pt n) (h : updatePR s grad = some s') (hex : grad ⬝ᵥ s.h = 0) :
    grad ⬝ᵥ s'.h = grad ⬝ᵥ grad := by
  rw [((c48_polak_ribiere s grad).2 s' h).2.2.2.2.2.2, dotProduct_add, dotProduct_smul, hex, smul_zero, add_zero]

/-! ## histories -/

/-- states reached by `k` calls of `iterate` that all returned true, as in `while(cg.iterate(f, deriv))` -/
inductive Reach (f : Pt n → Option ℝ) (deriv : Pt n → Pt n) (s0 : St n) : Nat → St n → Prop
  | zero : Reach f deriv s0 0 s0
  | step {k s s' fuel} : Reach f deriv s0 k s → iterate f deriv fuel s = .ret (some s', true) → Reach f deriv s0 (k + 1) s'

theorem construct_inv (garbage : St n) (start : Pt n) (f : Pt n → Option ℝ) (deriv : Pt n → Pt n) :
    Inv f (construct garbage start f deriv) := by
  refine ⟨rfl, rfl, ?_, fun h => h, ?_, ?_⟩ <;> simp only [construct, init] <;> norm_num

theorem updatePR_inv {f : Pt n → Option ℝ} {s s' : St n} {grad : Pt n} (hmh : s.y = f s.x)
    (hl : 0 < s.lambda0) (ht : 0 ≤ s.tolerance) (he : 0 ≤ s.epsilon) (h : updatePR s grad = some s') : Inv f s' := by
  have hp := (c48_polak_ribiere s grad).2 s' h
  obtain ⟨e1, e2, e3, e4, e5, e6, e7⟩ := hp
  unfold updatePR at h
  split at h
  · cases h
  · refine ⟨e4, by rw [e5, e6, hmh], ?_, ?_, ?_, ?_⟩
    · cases h; exact hl
    · intro h0
      rw [e1] at h0
      rw [e7, h0]
      simp
    · cases h; exact ht
    · cases h; exact he

/-- when the direction is zero the iteration ends the search -/
theorem zero_direction {f : Pt n → Option ℝ} {s s' : St n} {fuel : Nat} (hi : Inv f s) (h0 : s.h = 0)
    (h : findNext f fuel s = .ret s') : finished s' := by
  have hm := c48_descent f fuel s s' hi h
  have hx : s'.x = s.x := by
    obtain ⟨t, -, e⟩ := hm.dir
    rw [e, h0]; simp
  have hy : s'.y = s.y := by rw [hm.vy, hx, hi.vy]
  rcases hs : s.y with _ | y
  · -- NaN everywhere on the line: the bracketing does not return
    exfalso
    have hline : line f s = fun _ => none := by
      funext t
      rw [line_eq f s hi.mh, h0, smul_zero, sub_zero, ← hi.vy, hs]
    unfold findNext at h
    simp only [hline] at h
    have : ∀ fuel l, halveNan (fun _ => none) fuel l = .running := by
      intro fuel
      induction fuel with
      | zero => intro l; rfl
      | succ m ih => intro l; unfold halveNan; simp only; exact ih _
    unfold bracketForward at h
    rw [this] at h
    simp [Res.bind] at h
  · right
    rw [hy, hm.oldY, hs]
    simp only
    rw [sub_self, abs_zero, mul_zero]
    obtain ⟨-, -, -, -, -, e6, e7, -, -⟩ := hm.keep
    rw [e6, e7]
    have := hi.tol
    have := hi.eps
    positivity

/-- One iteration preserves the invariant and never divides by zero; the value does not increase and the iteration is counted. -/
theorem c48_iterate (f : Pt n → Option ℝ) (deriv : Pt n → Pt n) (fuel : Nat) (s : St n) (hi : Inv f s) (o : Option (St n))
    (b : Bool) (h : iterate f deriv fuel s = .ret (o, b)) :
    ∃ s', o = some s' ∧ (s'.y = s.y ∨ ltO s'.y s.y) ∧ s'.y = f s'.x ∧ s'.iterations = s.iterations + 1 ∧
      s'.oldX = s.x ∧ s'.oldY = s.y ∧ s'.maxIterations = s.maxIterations ∧
      (b = true → Inv f s' ∧ s'.g = deriv s'.x ∧ s'.iterations ≤ s'.maxIterations) ∧
      (b = false → s'.g = s.g ∧ s'.h = s.h ∧ finished s') := by
  unfold iterate at h
  generalize hr : findNext f fuel s = r at h
  cases r with
  | running => simp [Res.bind] at h
  | assertFail => simp [Res.bind] at h
  | nanInBrent => simp [Res.bind] at h
  | ret t =>
    simp only [Res.bind] at h
    have hm := c48_descent f fuel s t hi hr
    obtain ⟨k1, k2, k3, k4, k5, k6, k7, k8, k9⟩ := hm.keep
    have hdown : t.y = s.y ∨ ltO t.y s.y := hm.down.imp (fun h => h.2) id
    split at h
    · rename_i hf
      injection h with h
      injection h with h1 h2
      subst h1 h2
      exact ⟨t, rfl, hdown, hm.vy, hm.its, hm.oldX, hm.oldY, k8, by simp, fun _ => ⟨k1, k2, hf⟩⟩
    · rename_i hf
      injection h with h
      injection h with h1 h2
      subst h2
      have hg : t.g ≠ 0 := by
        intro h0
        rw [k1] at h0
        exact hf (zero_direction hi (hi.gh h0) hr)
      have hne : updatePR t (deriv t.x) ≠ none := fun he => hg (((c48_polak_ribiere t (deriv t.x)).1).1 he)
      obtain ⟨s', hs'⟩ := Option.ne_none_iff_exists'.1 hne
      obtain ⟨e1, e2, e3, e4, e5, e6, e7⟩ := (c48_polak_ribiere t (deriv t.x)).2 s' hs'
      have hinv : Inv f s' := updatePR_inv hm.vy (by rw [k9]; exact hi.lam) (by rw [k6]; exact hi.tol)
        (by rw [k7]; exact hi.eps) hs'
      have hits : s'.iterations = t.iterations ∧ s'.maxIterations = t.maxIterations ∧ s'.oldX = t.oldX ∧ s'.oldY = t.oldY := by
        unfold updatePR at hs'
        split at hs'
        · cases hs'
        · cases hs'; exact ⟨rfl, rfl, rfl, rfl⟩
      obtain ⟨i1, i2, i3, i4⟩ := hits
      have hmax : t.iterations ≤ t.maxIterations := by
        by_contra hh
        exact hf (Or.inl (not_le.1 hh))
      refine ⟨s', by rw [← h1, hs'], by rw [e6]; exact hdown, hinv.vy, by rw [i1, hm.its], by rw [i3, hm.oldX],
        by rw [i4, hm.oldY], by rw [i2, k8], fun _ => ⟨hinv, by rw [e1, e5], by omega⟩, by simp⟩

/-- The whole optimisation, for every function, gradient functor and number of iterations: after `k` successful iterations the
recorded value is the function's value at the current point, it is no larger than at the start, `k` iterations are counted and
`k ≤ 100 n`; the next iteration divides by zero in no case. -/
theorem c48_history (f : Pt n → Option ℝ) (deriv : Pt n → Pt n) (garbage : St n) (start : Pt n) (k : Nat) (s : St n)
    (h : Reach f deriv (construct garbage start f deriv) k s) :
    s.y = f s.x ∧ (s.y = f start ∨ ltO s.y (f start)) ∧ s.iterations = k ∧ k ≤ 100 * n ∧
      ∀ fuel b, iterate f deriv fuel s ≠ .ret (none, b) := by
  have key : Inv f s ∧ (s.y = f start ∨ ltO s.y (f start)) ∧ s.iterations = k ∧ s.maxIterations = (n : Int) * 100 ∧
      k ≤ 100 * n := by
    induction h with
    | zero => exact ⟨construct_inv _ _ _ _, Or.inl rfl, rfl, rfl, by omega⟩
    | step hr hit ih =>
      rename_i k s s' fuel
      obtain ⟨i1, i2, i3, i4, i5⟩ := ih
      obtain ⟨t, e, q1, q2, q3, -, -, q4, q5, -⟩ := c48_iterate f deriv fuel s i1 _ _ hit
      injection e with e
      subst e
      obtain ⟨r1, -, r3⟩ := q5 rfl
      refine ⟨r1, ?_, by rw [q3, i3]; push_cast; ring, by rw [q4, i4], ?_⟩
      · rcases q1 with q | q
        · rw [q]; exact i2
        · rcases i2 with i | i
          · rw [← i]; exact Or.inr q
          · right
            generalize s'.y = a at *
            generalize s.y = b at *
            generalize f start = c at *
            cases a <;> cases b <;> cases c <;> simp only [ltO] at *
            exact q.trans i
      · rw [q4, i4, q3, i3] at r3
        omega
  obtain ⟨i1, i2, i3, i4, i5⟩ := key
  refine ⟨i1.vy, i2, i3, i5, fun fuel b hc => ?_⟩
  obtain ⟨t, e, -⟩ := c48_iterate f deriv fuel s i1 _ _ hc
  cases e

/-- the hypotheses are met: `(x-1)²` from `0`; the first iteration returns (in exact arithmetic) without a failing assertion -/
example (garbage : St 1) : ∃ fuel s', findNext (fun x => some ((x 0 - 1) ^ 2)) fuel
    (construct garbage (fun _ => 0) (fun x => some ((x 0 - 1) ^ 2)) (fun x => fun _ => 2 * (x 0 - 1))) = .ret s' := by
  set s := construct garbage (fun _ => 0) (fun x => some ((x 0 - 1) ^ 2)) (fun x => fun _ => 2 * (x 0 - 1)) with hs
  have hi : Inv (fun x : Pt 1 => some ((x 0 - 1) ^ 2)) s := construct_inv _ _ _ _
  obtain ⟨fuel, k, hk⟩ := c48_bracket_returns (fun t => (2 * t - 1) ^ 2) 1 (10⁻¹ ^ 20) one_pos (by norm_num)
    (Or.inl (by norm_num))
  refine ⟨fuel, ?_⟩
  have hl : line (fun x : Pt 1 => some ((x 0 - 1) ^ 2)) s = fun t => some ((2 * t - 1) ^ 2) := by
    funext t
    simp [line, construct, init, hs, mul_comm]
  have hne : ∀ j : Nat, (fun x : Pt 1 => (x 0 - 1) ^ 2) (s.x - ((2 : ℝ) ^ (j + 1) * s.lambda0) • s.h) ≠
      (fun x : Pt 1 => (x 0 - 1) ^ 2) (s.x - ((2 : ℝ) ^ j * s.lambda0) • s.h) := by
    intro j
    have : (1 : ℝ) ≤ 2 ^ j := one_le_pow₀ (by norm_num)
    simp only [hs, construct, init, Pi.sub_apply, Pi.smul_apply, smul_eq_mul, mul_one, pow_succ]
    generalize (2 : ℝ) ^ j = u at *
    intro h
    nlinarith
  rcases c48_asserts (fun x => (x 0 - 1) ^ 2) fuel s hi hne with h | h
  · exfalso
    unfold findNext at h
    simp only [hl] at h
    have e : bracketForward (fun t => some ((2 * t - 1) ^ 2)) fuel s.y s.lambda0 s.bracketEpsilon = .ret k := by
      rw [← hk]
      simp [hs, construct, init]
    rw [e] at h
    simp only [Res.bind] at h
    split at h
    · cases h
    · split at h
      · cases h
      · split at h
        · cases h
        · split at h
          · cases h
          · split at h
            · cases h
            · split at h
              · cases h
              · split at h <;> cases h
  · exact h

end TooN.CG
