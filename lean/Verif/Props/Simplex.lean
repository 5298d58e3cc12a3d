import Verif.Model.Simplex
import Mathlib.LinearAlgebra.AffineSpace.Independent
import Mathlib.LinearAlgebra.Matrix.Determinant.Basic
import Mathlib.LinearAlgebra.Matrix.ToLinearEquiv
/-!
# C47: downhill simplex
-/
set_option linter.unusedSectionVars false
namespace TooN.Simplex
open Finset
open scoped Classical

variable {n : Nat}

/-! ## specification -/

/-- `k` is the first index of a smallest value -/
def FirstMin (n : Nat) (v : Nat → ℝ) (k : Nat) : Prop := k ≤ n ∧ (∀ i ≤ n, v k ≤ v i) ∧ ∀ i < k, v k < v i
/-- `k` is the first index of a largest value -/
def FirstMax (n : Nat) (v : Nat → ℝ) (k : Nat) : Prop := k ≤ n ∧ (∀ i ≤ n, v i ≤ v k) ∧ ∀ i < k, v i < v k

/-- the values belong to the vertices -/
def Consistent (f : Pt n → ℝ) (s : St n) : Prop := ∀ i ≤ n, s.values i = f (s.simplex i)

/-- the vertices are in general position (the simplex has volume) -/
def NonDegenerate (s : St n) : Prop := AffineIndependent ℝ (fun i : Fin (n + 1) => s.simplex i)

/-- centroid of the vertices other than `w` -/
noncomputable def centroid (s : St n) (w : Nat) : Pt n := (1 / (n : ℝ)) • ∑ i ∈ (range (n + 1)).erase w, s.simplex i

/-! ## lemmas -/

theorem getBest_spec (n : Nat) (v : Nat → ℝ) : FirstMin n v (getBest n v) := by
  have := forRange_inv (fun i (b : Nat) => b < i ∧ (∀ j < i, v b ≤ v j) ∧ ∀ j < b, v b < v j) 1 (n + 1) (by omega)
    (fun i best => if v i < v best then i else best) 0
    ⟨by omega, fun j hj => by obtain rfl : j = 0 := by omega
                              exact le_rfl, by omega⟩ ?_
  · obtain ⟨h1, h2, h3⟩ := this
    exact ⟨by unfold getBest; omega, fun i hi => h2 i (by omega), h3⟩
  · rintro i b h1 h2 ⟨q1, q2, q3⟩
    beta_reduce
    split
    · rename_i hlt
      refine ⟨by omega, fun j hj => ?_, fun j hj => lt_of_lt_of_le hlt (q2 j (by omega))⟩
      rcases Nat.lt_succ_iff_lt_or_eq.1 hj with h | rfl
      · exact (hlt.trans_le (q2 j h)).le
      · exact le_rfl
    · rename_i hlt
      refine ⟨by omega, fun j hj => ?_, q3⟩
      rcases Nat.lt_succ_iff_lt_or_eq.1 hj with h | rfl
      · exact q2 j h
      · exact not_lt.1 hlt

theorem getWorst_spec (n : Nat) (v : Nat → ℝ) : FirstMax n v (getWorst n v) := by
  have := forRange_inv (fun i (b : Nat) => b < i ∧ (∀ j < i, v j ≤ v b) ∧ ∀ j < b, v j < v b) 1 (n + 1) (by omega)
    (fun i worst => if v worst < v i then i else worst) 0
    ⟨by omega, fun j hj => by obtain rfl : j = 0 := by omega
                              exact le_rfl, by omega⟩ ?_
  · obtain ⟨h1, h2, h3⟩ := this
    exact ⟨by unfold getWorst; omega, fun i hi => h2 i (by omega), h3⟩
  · rintro i b h1 h2 ⟨q1, q2, q3⟩
    beta_reduce
    split
    · rename_i hlt
      refine ⟨by omega, fun j hj => ?_, fun j hj => lt_of_le_of_lt (q2 j (by omega)) hlt⟩
      rcases Nat.lt_succ_iff_lt_or_eq.1 hj with h | rfl
      · exact ((q2 j h).trans_lt hlt).le
      · exact le_rfl
    · rename_i hlt
      refine ⟨by omega, fun j hj => ?_, q3⟩
      rcases Nat.lt_succ_iff_lt_or_eq.1 hj with h | rfl
      · exact q2 j h
      · exact not_lt.1 hlt

theorem firstMin_unique {n : Nat} {v : Nat → ℝ} {a b : Nat} (ha : FirstMin n v a) (hb : FirstMin n v b) : a = b := by
  obtain ⟨a1, a2, a3⟩ := ha
  obtain ⟨b1, b2, b3⟩ := hb
  rcases lt_trichotomy a b with h | h | h
  · exact absurd (a2 b b1) (not_le.2 (b3 a h))
  · exact h
  · exact absurd (b2 a a1) (not_le.2 (a3 b h))

theorem scan_spec (s : St n) (w : Nat) :
    (scan s w).best = getBest n s.values ∧ (scan s w).bestval = some (s.values (getBest n s.values)) ∧
      (scan s w).x0 = ∑ i ∈ (range (n + 1)).erase w, s.simplex i ∧
      (∀ t, ltBot t (scan s w).secondWorst ↔ ∃ i ≤ n, i ≠ w ∧ t < s.values i) := by
  have := forN_inv (fun i (sc : Scan n) =>
      (i = 0 → sc.bestval = none) ∧
      (0 < i → sc.best < i ∧ sc.bestval = some (s.values sc.best) ∧ (∀ j < i, s.values sc.best ≤ s.values j) ∧
        ∀ j < sc.best, s.values sc.best < s.values j) ∧
      sc.x0 = ∑ j ∈ (range i).erase w, s.simplex j ∧
      (match sc.secondWorst with
        | none => ∀ j < i, j = w
        | some y => (∃ j < i, j ≠ w ∧ y = s.values j) ∧ ∀ j < i, j ≠ w → s.values j ≤ y))
    (n + 1) (fun i sc =>
      let sc := if ltTop (s.values i) sc.bestval then { sc with bestval := some (s.values i), best := i } else sc
      if i ≠ w then
        let sc := if gtBot (s.values i) sc.secondWorst then { sc with secondWorst := some (s.values i) } else sc
        { sc with x0 := sc.x0 + s.simplex i }
      else sc)
    { secondWorst := none, bestval := none, best := 0, x0 := 0 } ?_ ?_
  · change (_ ∧ _ ∧ (scan s w).x0 = _ ∧ _) at this
    obtain ⟨-, h2, h3, h4⟩ := this
    obtain ⟨q1, q2, q3, q4⟩ := h2 (by omega)
    change (scan s w).best < n + 1 at q1
    change (scan s w).bestval = some (s.values (scan s w).best) at q2
    change ∀ j < n + 1, s.values (scan s w).best ≤ s.values j at q3
    change ∀ j < (scan s w).best, s.values (scan s w).best < s.values j at q4
    have e : (scan s w).best = getBest n s.values :=
      firstMin_unique ⟨by omega, fun i hi => q3 i (by omega), q4⟩ (getBest_spec n s.values)
    refine ⟨e, by rw [q2, e], h3, ?_⟩
    intro t
    change (match (scan s w).secondWorst with
        | none => ∀ j < n + 1, j = w
        | some y => (∃ j < n + 1, j ≠ w ∧ y = s.values j) ∧ ∀ j < n + 1, j ≠ w → s.values j ≤ y) at h4
    generalize (scan s w).secondWorst = o at h4
    cases o with
    | none =>
      simp only [ltBot, false_iff, not_exists, not_and]
      intro i hi hne
      exact absurd (h4 i (by omega)) hne
    | some y =>
      obtain ⟨⟨j, hj, hjw, rfl⟩, hmax⟩ := h4
      simp only [ltBot]
      constructor
      · intro h; exact ⟨j, by omega, hjw, h⟩
      · rintro ⟨i, hi, hiw, hlt⟩
        exact lt_of_lt_of_le hlt (hmax i (by omega) hiw)
  · exact ⟨fun _ => rfl, by omega, by simp, fun j hj => by omega⟩
  · rintro i sc hi ⟨p1, p2, p3, p4⟩
    -- the best value
    have hb : ∀ sc' : Scan n, sc'.bestval = (if ltTop (s.values i) sc.bestval then
          ({ sc with bestval := some (s.values i), best := i } : Scan n) else sc).bestval →
        sc'.best = (if ltTop (s.values i) sc.bestval then
          ({ sc with bestval := some (s.values i), best := i } : Scan n) else sc).best →
        sc'.best < i + 1 ∧ sc'.bestval = some (s.values sc'.best) ∧ (∀ j < i + 1, s.values sc'.best ≤ s.values j) ∧
          ∀ j < sc'.best, s.values sc'.best < s.values j := by
      intro sc' e1 e2
      rw [e1, e2]
      rcases Nat.eq_zero_or_pos i with rfl | hpos
      · have ht : ltTop (s.values 0) sc.bestval := by rw [p1 rfl]; trivial
        simp only [if_pos ht]
        refine ⟨by omega, trivial, fun j hj => ?_, by omega⟩
        obtain rfl : j = 0 := by omega
        exact le_rfl
      · obtain ⟨q1, q2, q3, q4⟩ := p2 hpos
        have hiff : ltTop (s.values i) sc.bestval ↔ s.values i < s.values sc.best := by rw [q2]; rfl
        by_cases ht : ltTop (s.values i) sc.bestval
        · have hlt := hiff.1 ht
          simp only [if_pos ht]
          refine ⟨by omega, trivial, fun j hj => ?_, fun j hj => lt_of_lt_of_le hlt (q3 j hj)⟩
          rcases Nat.lt_succ_iff_lt_or_eq.1 hj with h | rfl
          · exact (hlt.trans_le (q3 j h)).le
          · exact le_rfl
        · have hlt := mt hiff.2 ht
          simp only [if_neg ht]
          refine ⟨by omega, q2, fun j hj => ?_, q4⟩
          rcases Nat.lt_succ_iff_lt_or_eq.1 hj with h | rfl
          · exact q3 j h
          · exact not_lt.1 hlt
    have ex0 : (if ltTop (s.values i) sc.bestval then
          ({ sc with bestval := some (s.values i), best := i } : Scan n) else sc).x0 = sc.x0 := by split <;> rfl
    have esw : (if ltTop (s.values i) sc.bestval then
          ({ sc with bestval := some (s.values i), best := i } : Scan n) else sc).secondWorst = sc.secondWorst := by
      split <;> rfl
    simp only
    generalize (if ltTop (s.values i) sc.bestval then
          ({ sc with bestval := some (s.values i), best := i } : Scan n) else sc) = sc1 at *
    split
    · rename_i hne
      have esum : ∑ j ∈ (range (i + 1)).erase w, s.simplex j = sc.x0 + s.simplex i := by
        rw [range_add_one, erase_insert_of_ne hne, sum_insert (by simp), p3, add_comm]
      split
      · rename_i hgt
        refine ⟨by omega, fun _ => hb _ rfl rfl, by simp only [ex0]; exact esum.symm, ?_⟩
        simp only
        refine ⟨⟨i, by omega, hne, rfl⟩, fun j hj hjw => ?_⟩
        rcases Nat.lt_succ_iff_lt_or_eq.1 hj with h | rfl
        · rw [esw] at hgt
          generalize sc.secondWorst = o at hgt p4
          cases o with
          | none => exact absurd (p4 j h) hjw
          | some y => exact (p4.2 j h hjw).trans (le_of_lt hgt)
        · exact le_rfl
      · rename_i hgt
        refine ⟨by omega, fun _ => hb _ rfl rfl, by simp only [ex0]; exact esum.symm, ?_⟩
        simp only
        rw [esw] at hgt ⊢
        generalize sc.secondWorst = o at hgt p4
        cases o with
        | none => exact absurd trivial hgt
        | some y =>
          obtain ⟨⟨j, hj, hjw, e⟩, hm⟩ := p4
          refine ⟨⟨j, by omega, hjw, e⟩, fun k hk hkw => ?_⟩
          rcases Nat.lt_succ_iff_lt_or_eq.1 hk with h | rfl
          · exact hm k h hkw
          · exact not_lt.1 hgt
    · rename_i hne
      push Not at hne
      refine ⟨by omega, fun _ => hb _ rfl rfl, ?_, ?_⟩
      · rw [ex0, p3, hne, range_add_one, erase_insert_eq_erase]
      · rw [esw]
        generalize sc.secondWorst = o at p4
        cases o with
        | none =>
          intro j hj
          rcases Nat.lt_succ_iff_lt_or_eq.1 hj with h | rfl
          · exact p4 j h
          · exact hne
        | some y =>
          obtain ⟨⟨j, hj, hjw, e⟩, hm⟩ := p4
          refine ⟨⟨j, by omega, hjw, e⟩, fun k hk hkw => ?_⟩
          rcases Nat.lt_succ_iff_lt_or_eq.1 hk with h | rfl
          · exact hm k h hkw
          · exact absurd hne hkw

/-- shrinking, declaratively -/
theorem shrink_spec (f : Pt n → ℝ) (σ : ℝ) (b : Nat) (s : St n) (hb : b ≤ n) :
    (∀ i ≤ n, i ≠ b → (shrink f σ b s).simplex i = s.simplex b + σ • (s.simplex i - s.simplex b) ∧
      (shrink f σ b s).values i = f (s.simplex b + σ • (s.simplex i - s.simplex b))) ∧
    (shrink f σ b s).simplex b = s.simplex b ∧ (shrink f σ b s).values b = s.values b ∧
    (shrink f σ b s).evals = s.evals + n := by
  have := forN_inv (fun k (t : St n) =>
      (∀ i < k, i ≠ b → t.simplex i = s.simplex b + σ • (s.simplex i - s.simplex b) ∧
        t.values i = f (s.simplex b + σ • (s.simplex i - s.simplex b))) ∧
      (∀ i, (k ≤ i ∨ i = b) → t.simplex i = s.simplex i ∧ t.values i = s.values i) ∧
      t.evals = s.evals + (if b < k then k - 1 else k))
    (n + 1) (fun i s =>
      if i ≠ b then
        let x := s.simplex b + σ • (s.simplex i - s.simplex b)
        { s.put i x (f x) with evals := s.evals + 1 }
      else s) s ⟨by omega, fun _ _ => ⟨rfl, rfl⟩, by simp⟩ ?_
  · change (∀ i < n + 1, i ≠ b → (shrink f σ b s).simplex i = _ ∧ (shrink f σ b s).values i = _) ∧
      (∀ i, (n + 1 ≤ i ∨ i = b) → (shrink f σ b s).simplex i = _ ∧ (shrink f σ b s).values i = _) ∧
      (shrink f σ b s).evals = _ at this
    obtain ⟨h1, h2, h3⟩ := this
    refine ⟨fun i hi hne => h1 i (by omega) hne, (h2 b (Or.inr rfl)).1, (h2 b (Or.inr rfl)).2, ?_⟩
    rw [h3, if_pos (by omega)]; rfl
  · rintro i t hi ⟨p1, p2, p3⟩
    simp only
    split
    · rename_i hne
      have e1 := (p2 b (Or.inr rfl)).1
      have e2 := (p2 i (Or.inl le_rfl)).1
      refine ⟨fun j hj hjb => ?_, fun j hj => ?_, ?_⟩
      · simp only [St.put]
        by_cases h : j = i
        · subst h
          simp [e1, e2]
        · rw [Function.update_of_ne h, Function.update_of_ne h]
          exact p1 j (by omega) hjb
      · simp only [St.put]
        have h : j ≠ i := by
          rcases hj with h | rfl
          · omega
          · exact hne.symm
        rw [Function.update_of_ne h, Function.update_of_ne h]
        exact p2 j (hj.imp (fun h => by omega) id)
      · simp only [p3]
        split_ifs <;> omega
    · rename_i hne
      push Not at hne
      subst hne
      refine ⟨fun j hj hjb => p1 j (by omega) hjb, fun j hj => p2 j (hj.imp (fun h => by omega) id), ?_⟩
      rw [p3, if_neg (by omega), if_pos (by omega)]; rfl

/-- the four kinds of step (declarative form of `find_next_point`) -/
theorem findNext_cases (f : Pt n → ℝ) (p : Params) (s : St n) :
    let w := getWorst n s.values
    let b := getBest n s.values
    let x0 := centroid s w
    let xr := (1 + p.alpha) • x0 - p.alpha • s.simplex w
    let xe := p.rho • xr + (1 - p.rho) • x0
    let xc := (1 + p.gamma) • x0 - p.gamma • s.simplex w
    (f xr < s.values b ∧ f xe < f xr ∧
        findNext f p s = { s.put w xe (f xe) with evals := s.evals + 2 }) ∨
    (f xr < s.values b ∧ f xr ≤ f xe ∧
        findNext f p s = { s.put w xr (f xr) with evals := s.evals + 2 }) ∨
    (s.values b ≤ f xr ∧ (∃ i ≤ n, i ≠ w ∧ f xr < s.values i) ∧
        findNext f p s = { s.put w xr (f xr) with evals := s.evals + 1 }) ∨
    (s.values b ≤ f xr ∧ (∀ i ≤ n, i ≠ w → s.values i ≤ f xr) ∧ f xr < s.values w ∧ f xc ≤ f xr ∧
        findNext f p s = { s.put w xc (f xc) with evals := s.evals + 2 }) ∨
    (s.values b ≤ f xr ∧ (∀ i ≤ n, i ≠ w → s.values i ≤ f xr) ∧ (s.values w ≤ f xr ∨ f xr < f xc) ∧
        ∃ k ≤ 2, findNext f p s = shrink f p.sigma b { s with evals := s.evals + k }) := by
  intro w b x0 xr xe xc
  obtain ⟨h1, h2, h3, h4⟩ := scan_spec s w
  have key : findNext f p s =
      if f xr < s.values b then
        if f xe < f xr then { s.put w xe (f xe) with evals := s.evals + 2 }
        else { s.put w xr (f xr) with evals := s.evals + 2 }
      else if ∃ i ≤ n, i ≠ w ∧ f xr < s.values i then { s.put w xr (f xr) with evals := s.evals + 1 }
      else if f xr < s.values w then
        if f xc ≤ f xr then { s.put w xc (f xc) with evals := s.evals + 2 }
        else shrink f p.sigma b { s with evals := s.evals + 2 }
      else shrink f p.sigma b { s with evals := s.evals + 1 } := by
    unfold findNext
    simp only
    rw [show getWorst n s.values = w from rfl, h1, h2, h3]
    exact if_congr Iff.rfl rfl (if_congr (h4 _) rfl rfl)
  rw [key]
  by_cases c1 : f xr < s.values b
  · rw [if_pos c1]
    by_cases c2 : f xe < f xr
    · rw [if_pos c2]; exact Or.inl ⟨c1, c2, rfl⟩
    · rw [if_neg c2]; exact Or.inr (Or.inl ⟨c1, not_lt.1 c2, rfl⟩)
  · rw [if_neg c1]
    right; right
    by_cases c2 : ∃ i ≤ n, i ≠ w ∧ f xr < s.values i
    · rw [if_pos c2]; exact Or.inl ⟨not_lt.1 c1, c2, rfl⟩
    · rw [if_neg c2]
      push Not at c2
      right
      by_cases c3 : f xr < s.values w
      · rw [if_pos c3]
        by_cases c4 : f xc ≤ f xr
        · rw [if_pos c4]; exact Or.inl ⟨not_lt.1 c1, c2, c3, c4, rfl⟩
        · rw [if_neg c4]; exact Or.inr ⟨not_lt.1 c1, c2, Or.inr (not_le.1 c4), 2, le_rfl, rfl⟩
      · rw [if_neg c3]; exact Or.inr ⟨not_lt.1 c1, c2, Or.inl (not_lt.1 c3), 1, by omega, rfl⟩

theorem restart_spec (f : Pt n → ℝ) (c : Pt n) (sp : ℝ) (s : St n) :
    (∀ i ≤ n, (restart f c sp s).simplex i = fun j : Fin n => if (j : Nat) = i then c j + sp else c j) ∧
      (∀ i ≤ n, (restart f c sp s).values i = f ((restart f c sp s).simplex i)) := by
  have h1 := forN_inv (fun k (m : Nat → Pt n) => ∀ i < k, m i = c) (n + 1) (fun i m => Function.update m i c) s.simplex
    (by intro i hi; omega) (by
      intro i m hi h j hj
      by_cases e : j = i
      · subst e; simp
      · rw [Function.update_of_ne e]; exact h j (by omega))
  have h2 := forN_inv (fun k (m : Nat → Pt n) => (∀ i < k, m i = fun j : Fin n => if (j : Nat) = i then c j + sp else c j) ∧
      ∀ i, k ≤ i → i ≤ n → m i = c) n (fun i (m : Nat → Pt n) =>
    Function.update m i (fun j : Fin n => if (j : Nat) = i then m i j + sp else m i j))
    (forN (n + 1) (fun i m => Function.update m i c) s.simplex)
    ⟨by intro i hi; omega, fun i _ hi => h1 i (by omega)⟩ (by
      rintro i m hi ⟨p1, p2⟩
      refine ⟨fun j hj => ?_, fun j hj hj' => ?_⟩
      · by_cases e : j = i
        · subst e; simp [p2 j le_rfl hi.le]
        · rw [Function.update_of_ne e]; exact p1 j (by omega)
      · rw [Function.update_of_ne (by omega)]; exact p2 j (by omega) hj')
  have h3 : ∀ m : Nat → Pt n, ∀ i < n + 1,
      (forN (n + 1) (fun i v => Function.update v i (f (m i))) s.values) i = f (m i) := by
    intro m
    refine forN_inv (fun k (v : Nat → ℝ) => ∀ i < k, v i = f (m i)) (n + 1) _ s.values (by intro i hi; omega) ?_
    intro i v hi h j hj
    by_cases e : j = i
    · subst e; simp
    · rw [Function.update_of_ne e]; exact h j (by omega)
  refine ⟨fun i hi => ?_, fun i hi => h3 _ i (by omega)⟩
  rcases Nat.lt_or_eq_of_le hi with h | rfl
  · exact h2.1 i h
  · have := h2.2 i le_rfl le_rfl
    change (restart f c sp s).simplex i = c at this
    rw [this]
    funext j
    rw [if_neg (by have := j.2; omega)]

theorem put_consistent (f : Pt n → ℝ) {s : St n} (h : Consistent f s) (w : Nat) (x : Pt n) (k : Nat) :
    Consistent f { s.put w x (f x) with evals := k } := by
  intro i hi
  simp only [St.put]
  by_cases e : i = w
  · subst e; simp
  · rw [Function.update_of_ne e, Function.update_of_ne e]; exact h i hi

theorem shrink_consistent (f : Pt n → ℝ) {s : St n} (h : Consistent f s) (σ : ℝ) {b : Nat} (hb : b ≤ n) :
    Consistent f (shrink f σ b s) := by
  obtain ⟨h1, h2, h3, -⟩ := shrink_spec f σ b s hb
  intro i hi
  by_cases e : i = b
  · subst e; rw [h2, h3]; exact h i hi
  · rw [(h1 i hi e).1, (h1 i hi e).2]

theorem findNext_consistent (f : Pt n → ℝ) (p : Params) {s : St n} (h : Consistent f s) :
    Consistent f (findNext f p s) := by
  rcases findNext_cases f p s with ⟨-, -, e⟩ | ⟨-, -, e⟩ | ⟨-, -, e⟩ | ⟨-, -, -, -, e⟩ | ⟨-, -, -, k, -, e⟩ <;> rw [e]
  · exact put_consistent f h _ _ _
  · exact put_consistent f h _ _ _
  · exact put_consistent f h _ _ _
  · exact put_consistent f h _ _ _
  · exact shrink_consistent f (s := { s with evals := s.evals + k }) h _ (getBest_spec n s.values).1

/-! ## C47 -/

/-- Whatever a client does with the object (restarts, iterations with any parameters), the stored values are the function's
values at the stored vertices. -/
theorem c47_consistent (f : Pt n → ℝ) (c : Pt n) (spread : ℝ) (garbage : St n) (ops : List (Op n)) :
    Consistent f (runOps f ops (construct f c spread garbage)) := by
  have hr : ∀ c sp s, Consistent f (restart f c sp s) := fun c sp s => (restart_spec f c sp s).2
  have h0 : Consistent f (construct f c spread garbage) := hr _ _ _
  generalize construct f c spread garbage = s at h0
  induction ops generalizing s with
  | nil => exact h0
  | cons o os ih =>
    refine ih (s := o.run f s) ?_
    cases o with
    | restart c sp => exact hr _ _ _
    | restartBest sp => exact hr _ _ _
    | iterate p => exact findNext_consistent f p h0

/-- The vertices after construction or restart: `c` and `c` moved by `spread` along each axis. -/
theorem c47_restart (f : Pt n → ℝ) (c : Pt n) (sp : ℝ) (s : St n) :
    (∀ (i : Fin n), (restart f c sp s).simplex i = c + Pi.single i sp) ∧ (restart f c sp s).simplex n = c ∧
      (restart f c sp s).evals = s.evals + (n + 1) := by
  refine ⟨fun i => ?_, ?_, rfl⟩
  · rw [(restart_spec f c sp s).1 i i.2.le]
    funext j
    rw [Pi.add_apply, Pi.single_apply]
    by_cases h : j = i
    · simp [h]
    · rw [if_neg (fun e => h (Fin.ext e)), if_neg h, add_zero]
  · rw [(restart_spec f c sp s).1 n le_rfl]
    funext j
    rw [if_neg (by have := j.2; omega)]

/-- `get_best` is the first vertex with the smallest value and `get_worst` the first with the largest. -/
theorem c47_best_worst (n : Nat) (v : Nat → ℝ) : FirstMin n v (getBest n v) ∧ FirstMax n v (getWorst n v) :=
  ⟨getBest_spec n v, getWorst_spec n v⟩

/-- The best value never increases in an iteration. -/
theorem c47_best_never_increases (f : Pt n → ℝ) (p : Params) (s : St n) :
    (iterate f p s).1.values (getBest n (iterate f p s).1.values) ≤ s.values (getBest n s.values) := by
  change (findNext f p s).values (getBest n (findNext f p s).values) ≤ _
  obtain ⟨w1, w2, w3⟩ := getWorst_spec n s.values
  obtain ⟨b1, b2, b3⟩ := getBest_spec n s.values
  -- enough: some vertex is at least as good
  suffices h : ∃ i ≤ n, (findNext f p s).values i ≤ s.values (getBest n s.values) by
    obtain ⟨i, hi, hle⟩ := h
    exact ((getBest_spec n _).2.1 i hi).trans hle
  rcases findNext_cases f p s with ⟨h1, h2, e⟩ | ⟨h1, h2, e⟩ | ⟨h1, h2, e⟩ | ⟨h1, h2, h3, h4, e⟩ | ⟨-, -, -, k, -, e⟩ <;> rw [e]
  · refine ⟨getWorst n s.values, w1, ?_⟩
    simp only [St.put, Function.update_self]
    exact (h2.trans h1).le
  · refine ⟨getWorst n s.values, w1, ?_⟩
    simp only [St.put, Function.update_self]
    exact h1.le
  · refine ⟨getBest n s.values, b1, ?_⟩
    simp only [St.put]
    rw [Function.update_of_ne]
    intro heq
    obtain ⟨i, hi, hne, hlt⟩ := h2
    have := w2 i hi
    rw [← heq] at this
    linarith
  · refine ⟨getBest n s.values, b1, ?_⟩
    simp only [St.put]
    rw [Function.update_of_ne]
    intro heq
    have h3' := h3
    rw [show s.values (getWorst n s.values) = s.values (getBest n s.values) by rw [← heq]] at h3'
    linarith
  · refine ⟨getBest n s.values, b1, ?_⟩
    rw [(shrink_spec f p.sigma _ { s with evals := s.evals + k } b1).2.2.1]

/-- Over any number of iterations, with parameters changed in any way between them. -/
theorem c47_best_history (f : Pt n → ℝ) (ps : List Params) (s : St n) :
    (runOps f (ps.map Op.iterate) s).values (getBest n (runOps f (ps.map Op.iterate) s).values) ≤
      s.values (getBest n s.values) := by
  induction ps generalizing s with
  | nil => exact le_rfl
  | cons p ps ih => exact (ih _).trans (c47_best_never_increases f p s)

/-- One iteration is a Nelder-Mead step as documented: expansion, reflection, contraction of the first worst vertex through the
centroid of the others, or a shrink towards the first best vertex. -/
theorem c47_step (f : Pt n → ℝ) (p : Params) (s : St n) (w b : Nat) (hw : FirstMax n s.values w)
    (hb : FirstMin n s.values b) :
    let x0 := centroid s w
    let xr := x0 + p.alpha • (x0 - s.simplex w)
    let xe := x0 + (p.rho * p.alpha) • (x0 - s.simplex w)
    let xc := x0 + p.gamma • (x0 - s.simplex w)
    let s' := (iterate f p s).1
    (∃ x, ((f xr < s.values b ∧ x = if f xe < f xr then xe else xr) ∨
          (s.values b ≤ f xr ∧ (∃ i ≤ n, i ≠ w ∧ f xr < s.values i) ∧ x = xr) ∨
          (s.values b ≤ f xr ∧ (∀ i ≤ n, i ≠ w → s.values i ≤ f xr) ∧ f xr < s.values w ∧ f xc ≤ f xr ∧ x = xc)) ∧
        s'.simplex w = x ∧ s'.values w = f x ∧
        ∀ i ≤ n, i ≠ w → s'.simplex i = s.simplex i ∧ s'.values i = s.values i) ∨
    ((s.values b ≤ f xr ∧ (∀ i ≤ n, i ≠ w → s.values i ≤ f xr) ∧ (s.values w ≤ f xr ∨ f xr < f xc)) ∧
        s'.simplex b = s.simplex b ∧ s'.values b = s.values b ∧
        ∀ i ≤ n, i ≠ b → s'.simplex i = s.simplex b + p.sigma • (s.simplex i - s.simplex b) ∧
          s'.values i = f (s'.simplex i)) := by
  have hw' : w = getWorst n s.values := by
    obtain ⟨a1, a2, a3⟩ := hw
    obtain ⟨b1, b2, b3⟩ := getWorst_spec n s.values
    rcases lt_trichotomy w (getWorst n s.values) with h | h | h
    · exact absurd (a2 _ b1) (not_le.2 (b3 _ h))
    · exact h
    · exact absurd (b2 _ a1) (not_le.2 (a3 _ h))
  have hb' : b = getBest n s.values := firstMin_unique hb (getBest_spec n s.values)
  intro x0 xr xe xc s'
  have er : (1 + p.alpha) • centroid s w - p.alpha • s.simplex w = xr := by
    simp only [xr, x0]; module
  have ee : p.rho • xr + (1 - p.rho) • centroid s w = xe := by
    simp only [xe, xr, x0]; module
  have ec : (1 + p.gamma) • centroid s w - p.gamma • s.simplex w = xc := by
    simp only [xc, x0]; module
  have key := findNext_cases f p s
  simp only [← hw', ← hb', er, ee, ec] at key
  have hput : ∀ x k, findNext f p s = { s.put w x (f x) with evals := k } →
      s'.simplex w = x ∧ s'.values w = f x ∧
        ∀ i ≤ n, i ≠ w → s'.simplex i = s.simplex i ∧ s'.values i = s.values i := by
    intro x k e
    have e' : s' = { s.put w x (f x) with evals := k } := e
    rw [e']
    refine ⟨by simp [St.put], by simp [St.put], fun i hi hne => ?_⟩
    simp only [St.put]
    rw [Function.update_of_ne hne, Function.update_of_ne hne]
    exact ⟨rfl, rfl⟩
  rcases key with ⟨h1, h2, e⟩ | ⟨h1, h2, e⟩ | ⟨h1, h2, e⟩ | ⟨h1, h2, h3, h4, e⟩ | ⟨h1, h2, h3, k, -, e⟩
  · exact Or.inl ⟨xe, Or.inl ⟨h1, by rw [if_pos h2]⟩, hput _ _ e⟩
  · exact Or.inl ⟨xr, Or.inl ⟨h1, by rw [if_neg (not_lt.2 h2)]⟩, hput _ _ e⟩
  · exact Or.inl ⟨xr, Or.inr (Or.inl ⟨h1, h2, rfl⟩), hput _ _ e⟩
  · exact Or.inl ⟨xc, Or.inr (Or.inr ⟨h1, h2, h3, h4, rfl⟩), hput _ _ e⟩
  · right
    have e' : s' = shrink f p.sigma b { s with evals := s.evals + k } := e
    obtain ⟨q1, q2, q3, -⟩ := shrink_spec f p.sigma b { s with evals := s.evals + k } hb.1
    rw [e']
    refine ⟨⟨h1, h2, h3⟩, q2, q3, fun i hi hne => ?_⟩
    obtain ⟨r1, r2⟩ := q1 i hi hne
    exact ⟨r1, by rw [r2, r1]⟩

/-- An iteration evaluates the function at least once and at most `n + 2` times. -/
theorem c47_evaluations (f : Pt n → ℝ) (p : Params) (s : St n) :
    s.evals < (iterate f p s).1.evals ∧ (iterate f p s).1.evals ≤ s.evals + max 2 (n + 2) := by
  change s.evals < (findNext f p s).evals ∧ (findNext f p s).evals ≤ _
  have b1 := (getBest_spec n s.values).1
  have key : ∃ k, 1 ≤ k ∧ k ≤ 2 ∧ ((findNext f p s).evals = s.evals + k ∨ (findNext f p s).evals = s.evals + k + n) := by
    unfold findNext
    simp only
    have hs := fun k => (shrink_spec f p.sigma _ { s with evals := s.evals + k } b1).2.2.2
    simp only [(scan_spec s _).1]
    split
    · split <;> exact ⟨2, by omega, by omega, Or.inl rfl⟩
    · split
      · exact ⟨1, by omega, by omega, Or.inl rfl⟩
      · split
        · split
          · exact ⟨2, by omega, by omega, Or.inl rfl⟩
          · exact ⟨2, by omega, by omega, Or.inr (hs 2)⟩
        · exact ⟨1, by omega, by omega, Or.inr (hs 1)⟩
  obtain ⟨k, h1, h2, h3⟩ := key
  omega

/-- `finished()` is the documented test: the distance between the best and the worst vertex is small relative to the best
vertex's distance from the origin, or small in itself.  `iterate` returns its negation for the new simplex. -/
theorem c47_finished (f : Pt n → ℝ) (p : Params) (s : St n) (hp : 0 < p.zeroEps) (w b : Nat)
    (hw : FirstMax n s.values w) (hb : FirstMin n s.values b) :
    (finished p s = true ↔
      nrm (s.simplex b - s.simplex w) < p.epsilon * nrm (s.simplex b) ∨ nrm (s.simplex b - s.simplex w) < p.zeroEps) ∧
    (iterate f p s).2 = !finished p (iterate f p s).1 := by
  refine ⟨?_, rfl⟩
  have hw' : w = getWorst n s.values := by
    obtain ⟨a1, a2, a3⟩ := hw
    obtain ⟨b1, b2, b3⟩ := getWorst_spec n s.values
    rcases lt_trichotomy w (getWorst n s.values) with h | h | h
    · exact absurd (a2 _ b1) (not_le.2 (b3 _ h))
    · exact h
    · exact absurd (b2 _ a1) (not_le.2 (a3 _ h))
  have hb' : b = getBest n s.values := firstMin_unique hb (getBest_spec n s.values)
  unfold finished
  simp only [← hw', ← hb']
  have n1 : 0 ≤ nrm (s.simplex b) := Real.sqrt_nonneg _
  have n2 : 0 ≤ nrm (s.simplex b - s.simplex w) := Real.sqrt_nonneg _
  generalize nrm (s.simplex b) = scale at *
  generalize nrm (s.simplex b - s.simplex w) = span at *
  rw [show ((if (scale ≠ 0 ∧ span / scale < p.epsilon) ∨ span < p.zeroEps then true else false) = true) ↔
    ((scale ≠ 0 ∧ span / scale < p.epsilon) ∨ span < p.zeroEps) by split <;> simp_all]
  refine or_congr ?_ Iff.rfl
  rcases n1.eq_or_lt with h | h
  · rw [← h]; simp only [ne_eq, not_true_eq_false, false_and, mul_zero, false_iff, not_lt]; exact n2
  · rw [div_lt_iff₀ h]; exact and_iff_right h.ne'

/-- Only two vertices enter the test: as soon as all the values are equal, `finished()` is true whatever the size of the
simplex (first best and first worst are then the same vertex). -/
theorem c47_finished_equal_values_wrong (p : Params) (s : St n) (hp : 0 < p.zeroEps)
    (h : ∀ i ≤ n, s.values i = s.values 0) : finished p s = true := by
  have hb : getBest n s.values = 0 := by
    obtain ⟨a1, a2, a3⟩ := getBest_spec n s.values
    by_contra hne
    have := a3 0 (by omega)
    rw [h _ a1] at this
    exact lt_irrefl _ this
  have hw : getWorst n s.values = 0 := by
    obtain ⟨a1, a2, a3⟩ := getWorst_spec n s.values
    by_contra hne
    have := a3 0 (by omega)
    rw [h _ a1] at this
    exact lt_irrefl _ this
  unfold finished
  simp only [hb, hw, sub_self]
  rw [if_pos]
  right
  simpa [nrm] using hp

/-! ### the simplex stays non-degenerate -/

/-- the vertices in homogeneous coordinates -/
def homMat (m : Nat → Pt n) : Matrix (Fin (n + 1)) (Fin (n + 1)) ℝ :=
  fun i => Fin.cons (α := fun _ => ℝ) 1 (m i)

theorem hom_det (s : St n) : NonDegenerate s ↔ (homMat s.simplex).det ≠ 0 := by
  unfold NonDegenerate
  rw [affineIndependent_iff_of_fintype, ← not_iff_not, not_not, ← Matrix.exists_vecMul_eq_zero_iff]
  have hv : ∀ w : Fin (n + 1) → ℝ, Matrix.vecMul w (homMat s.simplex) = 0 ↔
      (∑ i, w i = 0 ∧ ∑ i, w i • s.simplex i = 0) := by
    intro w
    rw [funext_iff, Fin.forall_fin_succ]
    simp only [Matrix.vecMul, dotProduct, homMat, Fin.cons_zero, Fin.cons_succ, mul_one, Pi.zero_apply]
    refine and_congr Iff.rfl ?_
    rw [funext_iff]
    refine forall_congr' fun j => ?_
    rw [Finset.sum_apply]
    simp only [Pi.smul_apply, smul_eq_mul, Pi.zero_apply]
  simp only [hv]
  push Not
  constructor
  · rintro ⟨w, h1, h2, i, hi⟩
    rw [Finset.weightedVSub_eq_linear_combination _ h1] at h2
    exact ⟨w, fun h => hi (by rw [h]; rfl), h1, h2⟩
  · rintro ⟨w, h0, h1, h2⟩
    refine ⟨w, h1, by rw [Finset.weightedVSub_eq_linear_combination _ h1]; exact h2, ?_⟩
    by_contra hh
    push Not at hh
    exact h0 (funext hh)

/-- replacing a vertex by `x0 + t (x0 - x_w)` multiplies the signed volume by `-t` -/
theorem hom_put (s : St n) (hn : 0 < n) (w : Nat) (hw : w ≤ n) (t : ℝ) :
    (homMat (Function.update s.simplex w ((1 + t) • centroid s w - t • s.simplex w))).det =
      -t * (homMat s.simplex).det := by
  set W : Fin (n + 1) := ⟨w, by omega⟩
  have hn' : (n : ℝ) ≠ 0 := Nat.cast_ne_zero.2 (by omega)
  have e : homMat (Function.update s.simplex w ((1 + t) • centroid s w - t • s.simplex w)) =
      (homMat s.simplex).updateRow W (∑ k, (if k = W then -t else (1 + t) / n) • homMat s.simplex k) := by
    funext i j
    by_cases hi : i = W
    · subst hi
      rw [Matrix.updateRow_self]
      have hsum : ∀ a : Fin (n + 1) → ℝ, ∑ k, (if k = W then -t else (1 + t) / n) * a k =
          (1 + t) / n * ∑ k ∈ univ.erase W, a k - t * a W := by
        intro a
        rw [← Finset.add_sum_erase _ _ (mem_univ W), if_pos rfl, Finset.mul_sum]
        rw [Finset.sum_congr rfl (fun k hk => by rw [if_neg (Finset.ne_of_mem_erase hk)])]
        ring
      rw [Finset.sum_apply]
      simp only [Pi.smul_apply, smul_eq_mul]
      rw [hsum]
      unfold homMat
      refine Fin.cases ?_ (fun j => ?_) j
      · simp only [Fin.cons_zero]
        rw [Finset.sum_const, Finset.card_erase_of_mem (mem_univ _), Finset.card_univ, Fintype.card_fin]
        simp only [Nat.add_sub_cancel, nsmul_eq_mul, mul_one]
        field_simp
        ring
      · simp only [Fin.cons_succ, W, Function.update_self]
        rw [Pi.sub_apply, Pi.smul_apply, Pi.smul_apply, centroid, Pi.smul_apply, Finset.sum_apply]
        simp only [smul_eq_mul]
        have : ∑ i ∈ (range (n + 1)).erase w, s.simplex i j = ∑ k ∈ univ.erase W, s.simplex (k : Nat) j := by
          have h1 := Finset.add_sum_erase (range (n + 1)) (fun i => s.simplex i j) (mem_range.2 (by omega : w < n + 1))
          have h2 := Finset.add_sum_erase univ (fun k : Fin (n + 1) => s.simplex (k : Nat) j) (mem_univ W)
          rw [Fin.sum_univ_eq_sum_range (fun i => s.simplex i j)] at h2
          simp only [W] at h1 h2 ⊢
          linarith
        rw [this]
        ring
    · rw [Matrix.updateRow_ne hi]
      unfold homMat
      rw [Function.update_of_ne (fun h => hi (Fin.ext h))]
  rw [e, Matrix.det_updateRow_sum, if_pos rfl, smul_eq_mul]

theorem hom_mix (m : Nat → Pt n) (i b : Nat) (hi : i ≤ n) (hb : b ≤ n) (hne : i ≠ b) (σ : ℝ) :
    (homMat (Function.update m i (m b + σ • (m i - m b)))).det = σ * (homMat m).det := by
  set I : Fin (n + 1) := ⟨i, by omega⟩
  set B : Fin (n + 1) := ⟨b, by omega⟩
  have hIB : I ≠ B := fun h => hne (Fin.ext_iff.1 h)
  have e : homMat (Function.update m i (m b + σ • (m i - m b))) =
      (homMat m).updateRow I (σ • homMat m I + (1 - σ) • homMat m B) := by
    funext r j
    by_cases hr : r = I
    · subst hr
      rw [Matrix.updateRow_self]
      unfold homMat
      refine Fin.cases ?_ (fun j => ?_) j
      · simp only [Pi.add_apply, Pi.smul_apply, Fin.cons_zero, smul_eq_mul]; ring
      · simp only [Pi.add_apply, Pi.smul_apply, Fin.cons_succ, smul_eq_mul, I, B, Function.update_self, Pi.sub_apply]
        ring
    · rw [Matrix.updateRow_ne hr]
      unfold homMat
      rw [Function.update_of_ne (fun h => hr (Fin.ext h))]
  rw [e, Matrix.det_updateRow_add, Matrix.det_updateRow_smul, Matrix.det_updateRow_smul, Matrix.updateRow_eq_self]
  have : ((homMat m).updateRow I (homMat m B)).det = 0 := by
    refine Matrix.det_zero_of_row_eq hIB ?_
    rw [Matrix.updateRow_self, Matrix.updateRow_ne hIB.symm]
  rw [this]
  ring

theorem hom_shrink (f : Pt n → ℝ) (σ : ℝ) (b : Nat) (s : St n) (hb : b ≤ n) :
    (homMat (shrink f σ b s).simplex).det = σ ^ n * (homMat s.simplex).det := by
  have := forN_inv (fun k (t : St n) => (homMat t.simplex).det = σ ^ (if b < k then k - 1 else k) * (homMat s.simplex).det)
    (n + 1) (fun i s =>
      if i ≠ b then
        let x := s.simplex b + σ • (s.simplex i - s.simplex b)
        { s.put i x (f x) with evals := s.evals + 1 }
      else s) s (by simp) ?_
  · beta_reduce at this
    rw [if_pos (by omega)] at this
    exact this
  · intro i t hi h
    simp only
    split
    · rename_i hne
      simp only [St.put]
      rw [hom_mix t.simplex i b (by omega) hb hne, h]
      by_cases hbi : b < i
      · rw [if_pos hbi, if_pos (by omega), ← mul_assoc, ← pow_succ']
        congr 2; omega
      · rw [if_neg hbi, if_neg (by omega), ← mul_assoc, ← pow_succ']
    · rename_i hne
      push Not at hne
      subst hne
      rw [h, if_neg (by omega), if_pos (by omega)]; rfl

/-- In each iteration the (signed) volume of the simplex is multiplied by `-α`, `-ρα`, `-γ` or `σⁿ`. -/
theorem c47_volume (f : Pt n → ℝ) (p : Params) (s : St n) (hn : 0 < n) :
    ∃ k ∈ ({-p.alpha, -(p.rho * p.alpha), -p.gamma, p.sigma ^ n} : Set ℝ),
      (homMat (iterate f p s).1.simplex).det = k * (homMat s.simplex).det := by
  change ∃ k ∈ _, (homMat (findNext f p s).simplex).det = _
  obtain ⟨w1, -, -⟩ := getWorst_spec n s.values
  obtain ⟨b1, -, -⟩ := getBest_spec n s.values
  have hx : ∀ t, (homMat (Function.update s.simplex (getWorst n s.values)
      ((1 + t) • centroid s (getWorst n s.values) - t • s.simplex (getWorst n s.values)))).det =
      -t * (homMat s.simplex).det := fun t => hom_put s hn _ w1 t
  have hxe : p.rho • ((1 + p.alpha) • centroid s (getWorst n s.values) - p.alpha • s.simplex (getWorst n s.values)) +
      (1 - p.rho) • centroid s (getWorst n s.values) =
      (1 + p.rho * p.alpha) • centroid s (getWorst n s.values) - (p.rho * p.alpha) • s.simplex (getWorst n s.values) := by
    module
  rcases findNext_cases f p s with ⟨h1, h2, e⟩ | ⟨h1, h2, e⟩ | ⟨h1, h2, e⟩ | ⟨h1, h2, h3, h4, e⟩ | ⟨-, -, -, k, -, e⟩ <;>
    rw [e]
  · refine ⟨-(p.rho * p.alpha), by simp, ?_⟩
    simp only [St.put, hxe]
    exact hx _
  · exact ⟨-p.alpha, by simp, hx _⟩
  · exact ⟨-p.alpha, by simp, hx _⟩
  · exact ⟨-p.gamma, by simp, hx _⟩
  · exact ⟨p.sigma ^ n, by simp, hom_shrink f p.sigma _ { s with evals := s.evals + k } b1⟩

theorem restart_nondegenerate (f : Pt n → ℝ) (c : Pt n) (sp : ℝ) (hs : sp ≠ 0) (s : St n) :
    NonDegenerate (restart f c sp s) := by
  unfold NonDegenerate
  rw [affineIndependent_iff_of_fintype]
  intro w h1 h2
  rw [Finset.weightedVSub_eq_linear_combination _ h1] at h2
  have hrow : ∀ i : Fin (n + 1), (restart f c sp s).simplex i =
      fun j : Fin n => if (j : Nat) = i then c j + sp else c j := fun i => (restart_spec f c sp s).1 i (by omega)
  have hw : ∀ j : Fin n, w j.castSucc = 0 := by
    intro j
    have := congrFun h2 j
    rw [Finset.sum_apply] at this
    simp only [hrow, Pi.smul_apply, smul_eq_mul, Pi.zero_apply] at this
    have e : ∀ i : Fin (n + 1), w i * (if (j : Nat) = i then c j + sp else c j) =
        w i * c j + (if i = j.castSucc then w i * sp else 0) := by
      intro i
      by_cases h : i = j.castSucc
      · subst h; simp; ring
      · rw [if_neg (fun hh => h (Fin.ext (by simpa using hh.symm))), if_neg h, add_zero]
    simp only [e, Finset.sum_add_distrib, ← Finset.sum_mul, h1, zero_mul, zero_add, Finset.sum_ite_eq', mem_univ,
      if_true] at this
    exact (mul_eq_zero.1 this).resolve_right hs
  intro i
  refine Fin.lastCases ?_ hw i
  rw [Fin.sum_univ_castSucc] at h1
  simpa [hw] using h1

/-- reasonable use of the object: nonzero spreads and ratios -/
def Op.Ok : Op n → Prop
  | .restart _ sp => sp ≠ 0
  | .restartBest sp => sp ≠ 0
  | .iterate p => p.alpha ≠ 0 ∧ p.rho ≠ 0 ∧ p.gamma ≠ 0 ∧ p.sigma ≠ 0

/-- In exact arithmetic the simplex never collapses: after any history with nonzero spreads and ratios its vertices are
affinely independent. -/
theorem c47_nondegenerate (f : Pt n → ℝ) (c : Pt n) (spread : ℝ) (hs : spread ≠ 0) (garbage : St n) (ops : List (Op n))
    (ho : ∀ o ∈ ops, o.Ok) : NonDegenerate (runOps f ops (construct f c spread garbage)) := by
  have h0 : NonDegenerate (construct f c spread garbage) := restart_nondegenerate f c spread hs _
  generalize construct f c spread garbage = s at h0
  induction ops generalizing s with
  | nil => exact h0
  | cons o os ih =>
    refine ih (fun o h => ho o (List.mem_cons_of_mem _ h)) (o.run f s) ?_
    have ok := ho o (by simp)
    cases o with
    | restart c sp => exact restart_nondegenerate f c sp ok s
    | restartBest sp => exact restart_nondegenerate f _ sp ok s
    | iterate p =>
      obtain ⟨k1, k2, k3, k4⟩ := ok
      rcases Nat.eq_zero_or_pos n with rfl | hn
      · haveI : Subsingleton (Fin (0 + 1)) := inferInstanceAs (Subsingleton (Fin 1))
        exact affineIndependent_of_subsingleton ℝ _
      · rw [hom_det] at h0 ⊢
        obtain ⟨k, hk, e⟩ := c47_volume f p s hn
        change (homMat (iterate f p s).1.simplex).det ≠ 0
        rw [e]
        refine mul_ne_zero ?_ h0
        simp only [Set.mem_insert_iff, Set.mem_singleton_iff] at hk
        rcases hk with rfl | rfl | rfl | rfl
        · exact neg_ne_zero.2 k1
        · exact neg_ne_zero.2 (mul_ne_zero k2 k1)
        · exact neg_ne_zero.2 k3
        · exact pow_ne_zero _ k4

/-- the default parameters qualify -/
example : (Op.iterate Params.default : Op n).Ok := by
  unfold Op.Ok Params.default; norm_num

/-- ten iterations of a two-dimensional search: consistent, non-degenerate -/
example (f : Pt 2 → ℝ) (g : St 2) :
    NonDegenerate (runOps f (List.replicate 10 (Op.iterate Params.default)) (construct f ![-1, 1] 1 g)) ∧
    Consistent f (runOps f (List.replicate 10 (Op.iterate Params.default)) (construct f ![-1, 1] 1 g)) := by
  refine ⟨c47_nondegenerate f _ 1 one_ne_zero g _ ?_, c47_consistent f _ 1 g _⟩
  intro o ho
  rw [List.eq_of_mem_replicate ho]
  unfold Op.Ok Params.default; norm_num

/-- a constant function: the search declares itself finished at once, with a simplex of any size -/
example (c : Pt n) (spread : ℝ) (g : St n) : finished Params.default (construct (fun _ => 0) c spread g) = true := by
  refine c47_finished_equal_values_wrong _ _ (by unfold Params.default; norm_num) fun i hi => ?_
  have h := (restart_spec (fun _ => (0 : ℝ)) c spread { g with evals := 0 }).2
  exact (h i hi).trans (h 0 (by omega)).symm

/-- With the constructor's parameters the trial points are the mirror image of the worst vertex in the centroid of the others, the point
twice as far, and the midpoint between the centroid and the mirror image; a shrink halves the distances from the best vertex. -/
theorem c47_default_step (f : Pt n → ℝ) (s : St n) (w b : Nat) (hw : FirstMax n s.values w)
    (hb : FirstMin n s.values b) :
    let x0 := centroid s w
    let xr := (2 : ℝ) • x0 - s.simplex w
    let s' := (iterate f Params.default s).1
    (s'.simplex w = xr ∨ s'.simplex w = x0 + (2 : ℝ) • (xr - x0) ∨ s'.simplex w = (2 : ℝ)⁻¹ • (x0 + xr)) ∨
    ∀ i ≤ n, i ≠ b → s'.simplex i = (2 : ℝ)⁻¹ • (s.simplex b + s.simplex i) := by
  intro x0 xr s'
  have hr : x0 + Params.default.alpha • (x0 - s.simplex w) = xr := by
    show x0 + (1 : ℝ) • (x0 - s.simplex w) = (2 : ℝ) • x0 - s.simplex w
    rw [two_smul, one_smul]; abel
  have he : x0 + (Params.default.rho * Params.default.alpha) • (x0 - s.simplex w) = x0 + (2 : ℝ) • (xr - x0) := by
    rw [show Params.default.rho * Params.default.alpha = 2 by unfold Params.default; norm_num, ← hr,
      show Params.default.alpha = 1 from rfl, one_smul]
    congr 2; abel
  have hc : x0 + Params.default.gamma • (x0 - s.simplex w) = (2 : ℝ)⁻¹ • (x0 + xr) := by
    rw [show Params.default.gamma = 2⁻¹ by unfold Params.default; norm_num, ← hr,
      show Params.default.alpha = 1 from rfl, one_smul]
    funext k
    simp only [Pi.add_apply, Pi.smul_apply, Pi.sub_apply, smul_eq_mul]
    ring
  rcases c47_step f Params.default s w b hw hb with ⟨x, hx, h1, _⟩ | ⟨_, _, _, h⟩
  · left
    rw [show s'.simplex w = x from h1]
    rcases hx with ⟨_, hx⟩ | ⟨_, _, hx⟩ | ⟨_, _, _, _, hx⟩
    · split_ifs at hx
      · exact .inr (.inl (hx.trans he))
      · exact .inl (hx.trans hr)
    · exact .inl (hx.trans hr)
    · exact .inr (.inr (hx.trans hc))
  · right
    intro i hi hib
    refine (h i hi hib).1.trans ?_
    rw [show Params.default.sigma = 2⁻¹ by unfold Params.default; norm_num]
    funext k
    simp only [Pi.add_apply, Pi.smul_apply, Pi.sub_apply, smul_eq_mul]
    ring

end TooN.Simplex
