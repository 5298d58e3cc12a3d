import Verif.Proof.XF
import Verif.Model.Float
/-!
# Bounded and unbounded exponent range

The rounding-error theorems (C61–C71) use the standard model: every operation rounds to `p` significant bits, whatever the size of
the number.  The actual formats have a bounded exponent range.  The roundings agree except for results that are both tiny and
inexact (underflow) and for results above the largest finite number (overflow).
-/
set_option linter.unusedSectionVars false
namespace TooN.Special
open TooN.Ops TooN.Elim
open scoped Classical

section rounding
variable {p : ℕ} {emin : ℤ}

theorem rndNearest_scale (x : ℝ) (hx : 0 < x) (e : ℤ) : rndNearest p (x * (2:ℝ) ^ e) = rndNearest p x * (2:ℝ) ^ e := by
  have h2 : (0:ℝ) < (2:ℝ) ^ e := by positivity
  obtain ⟨b1, b2⟩ := binade x hx
  have hu : ulp p (x * (2:ℝ) ^ e) = ulp p x * (2:ℝ) ^ e := by
    rw [ulp_of_binade p x _ b1 b2, ulp_of_binade p (x * (2:ℝ) ^ e) (Int.log 2 |x| + e)]
    · rw [← zpow_add₀ (by norm_num)]; congr 1; ring
    · rw [zpow_add₀ (by norm_num)]; exact mul_le_mul_of_nonneg_right b1 h2.le
    · rw [show Int.log 2 |x| + e + 1 = (Int.log 2 |x| + 1) + e by ring, zpow_add₀ (by norm_num)]
      exact mul_lt_mul_of_pos_right b2 h2
  unfold rndNearest
  rw [hu, mul_div_mul_right _ _ h2.ne']
  ring

/-- a multiple of `2^emin` with few bits is representable -/
theorem rndNearest_multiple (hp : 1 ≤ p) (k : ℤ) (hk : |k| ≤ 2 ^ p) :
    rndNearest p (k * (2:ℝ) ^ emin) = k * (2:ℝ) ^ emin := by
  rcases lt_trichotomy k 0 with h | h | h
  · have hk' : |(-k)| ≤ 2 ^ p := by rwa [abs_neg]
    have hpos : (0:ℝ) < ((-k : ℤ) : ℝ) := by exact_mod_cast neg_pos.2 h
    have := rndNearest_scale (p := p) ((-k : ℤ) : ℝ) hpos emin
    rw [rndNearest_int p hp (-k) hk'] at this
    push_cast at this
    rw [neg_mul, rndNearest_neg] at this
    linarith
  · subst h; simp [rndNearest_zero]
  · have hpos : (0:ℝ) < (k : ℝ) := by exact_mod_cast h
    rw [rndNearest_scale _ hpos, rndNearest_int p hp k hk]

theorem tiny_multiple (hp : 1 ≤ p) (k : ℤ) (h : |(k:ℝ) * (2:ℝ) ^ emin| < (2:ℝ) ^ (emin + p - 1)) : |k| ≤ 2 ^ p := by
  have hs : (0:ℝ) < (2:ℝ) ^ emin := by positivity
  rw [normal_eq hp, abs_mul, abs_of_pos hs] at h
  have h' : |(k:ℝ)| < ((2 ^ (p - 1) : ℤ) : ℝ) := lt_of_mul_lt_mul_right h hs.le
  have h2 : |k| < 2 ^ (p - 1) := by exact_mod_cast h'
  have : (2:ℤ) ^ (p - 1) ≤ 2 ^ p := pow_le_pow_right₀ (by norm_num) (by omega)
  omega

/-- the two roundings agree on numbers that are not tiny -/
theorem agree_normal {z : ℝ} (h : (2:ℝ) ^ (emin + p - 1) ≤ |z|) : rndIEEE p emin z = rndNearest p z := by
  unfold rndIEEE
  rw [if_neg (not_lt.2 h)]

/-- and on multiples of the smallest number, however tiny -/
theorem agree_multiple (hp : 1 ≤ p) (k : ℤ) : rndIEEE p emin (k * (2:ℝ) ^ emin) = rndNearest p (k * (2:ℝ) ^ emin) := by
  rcases lt_or_ge |(k:ℝ) * (2:ℝ) ^ emin| ((2:ℝ) ^ (emin + p - 1)) with h | h
  · rw [rndNearest_multiple hp k (tiny_multiple hp k h), rndIEEE_small_fix hp k h.le]
  · exact agree_normal h

/-- a number of the format is representable in the standard model -/
theorem rep_standard (hp : 1 ≤ p) {x : ℝ} (h : rndIEEE p emin x = x) : rndNearest p x = x := by
  obtain ⟨k, hk⟩ := rndIEEE_multiple (p := p) (emin := emin) x
  rw [h] at hk
  have := agree_multiple (p := p) (emin := emin) hp k
  rw [← hk, h] at this
  exact this.symm

/-- sums of numbers of the format do not underflow -/
theorem agree_add (hp : 1 ≤ p) {x y : ℝ} (hx : rndIEEE p emin x = x) (hy : rndIEEE p emin y = y) :
    rndIEEE p emin (x + y) = rndNearest p (x + y) := by
  obtain ⟨k, hk⟩ := rndIEEE_multiple (p := p) (emin := emin) x
  obtain ⟨l, hl⟩ := rndIEEE_multiple (p := p) (emin := emin) y
  rw [hx] at hk
  rw [hy] at hl
  have := agree_multiple (p := p) (emin := emin) hp (k + l)
  rw [hk, hl, ← add_mul]
  push_cast at this
  exact this

/-- `z` is tiny and cannot be represented: IEEE-754 signals underflow -/
def Underflows (p : ℕ) (emin : ℤ) (z : ℝ) : Prop := |z| < (2:ℝ) ^ (emin + p - 1) ∧ rndIEEE p emin z ≠ z

/-- the two roundings agree unless there is an underflow -/
theorem agree_of_not_underflow (hp : 1 ≤ p) {z : ℝ} (h : ¬ Underflows p emin z) : rndIEEE p emin z = rndNearest p z := by
  unfold Underflows at h
  rw [not_and_or, not_lt, not_not] at h
  rcases h with h | h
  · exact agree_normal h
  · rw [h, rep_standard hp h]

end rounding

/-! ### Solving in two arithmetics -/

section rel
variable {K K' : Type} [Zero K] [One K] [Add K] [Sub K] [Mul K] [Div K] [Neg K] [LT K] [DecidableLT K] [DecidableEq K]
  [Zero K'] [One K'] [Add K'] [Sub K'] [Mul K'] [Div K'] [Neg K'] [LT K'] [DecidableLT K'] [DecidableEq K']

/-- the elements of `A` that are still used from step `i` on -/
def Live (n i r c : Nat) : Prop := r < n ∧ c < n ∧ ((i ≤ r ∧ i ≤ c) ∨ (r < i ∧ r < c))

/-- the live elements are related -/
def StRel (R : K → K' → Prop) (n nc i : Nat) (s : Mat K × Mat K) (s' : Mat K' × Mat K') : Prop :=
  (∀ r c, Live n i r c → R (s.1 r c) (s'.1 r c)) ∧ ∀ r q, r < n → q < nc → R (s.2 r q) (s'.2 r q)

/-- the operations used by the solver respect the relation -/
structure OpRel (R : K → K' → Prop) (upd : K → K → K → K) (upd' : K' → K' → K' → K') : Prop where
  mul : ∀ {a b a' b'}, R a a' → R b b' → R (a * b) (a' * b')
  sub : ∀ {a b a' b'}, R a a' → R b b' → R (a - b) (a' - b')
  inv : ∀ {a a'}, R a a' → R (1 / a) (1 / a')
  upd : ∀ {a f x a' f' x'}, R a a' → R f f' → R x x' → R (upd a f x) (upd' a' f' x')

variable {R : K → K' → Prop} {upd : K → K → K → K} {upd' : K' → K' → K' → K'}

theorem geStepT_rel (hR : OpRel R upd upd') (n nc i : Nat) (hi : i < n) (s : Mat K × Mat K) (s' : Mat K' × Mat K')
    (hp : pivotRow n i s.1 = pivotRow n i s'.1) (h : StRel R n nc i s s') :
    StRel R n nc (i+1) (geStepT upd n nc i s) (geStepT upd' n nc i s') := by
  obtain ⟨A, b⟩ := s
  obtain ⟨A', b'⟩ := s'
  obtain ⟨p1, p2⟩ := pivotRow_range n i hi A
  obtain ⟨A2, b2, e, hA, hb, hL⟩ := geStepT_gen upd n nc i hi A b _ rfl
  obtain ⟨A2', b2', e', hA', hb', hL'⟩ := geStepT_gen upd' n nc i hi A' b' _ rfl
  dsimp only at hp
  rw [← hp] at hA' hb' hL'
  rw [e, e']
  obtain ⟨hAr, hbr⟩ := h
  dsimp only at hAr hbr
  generalize pivotRow n i A = p at *
  have swlow : ∀ r, r < i → sw i p r = r := by intro r hr; unfold sw; split_ifs <;> omega
  have swge : ∀ r, i ≤ r → i ≤ sw i p r := by intro r hr; unfold sw; split_ifs <;> omega
  have swn := sw_lt (n := n) hi p2
  have hpc : ∀ c, i ≤ c → c < n → R (A p c) (A' p c) := fun c h1 h2 => hAr p c ⟨p2, h2, Or.inl ⟨p1, h1⟩⟩
  have hinv : R (1 / A p i) (1 / A' p i) := hR.inv (hpc i (le_refl _) hi)
  constructor
  · rintro r c ⟨hr, hc, h⟩
    dsimp only
    by_cases hci : i < c
    · rw [hA r c hci hc, hA' r c hci hc]
      by_cases e1 : r = i
      · rw [if_pos e1, if_pos e1]
        exact hR.mul (hpc c hci.le hc) hinv
      · rw [if_neg e1, if_neg e1]
        by_cases e2 : i < r ∧ r < n
        · rw [if_pos e2, if_pos e2]
          exact hR.upd (hAr _ _ ⟨swn r hr, hc, Or.inl ⟨swge r e2.1.le, hci.le⟩⟩)
            (hAr _ _ ⟨swn r hr, hi, Or.inl ⟨swge r e2.1.le, le_refl _⟩⟩) (hR.mul (hpc c hci.le hc) hinv)
        · rw [if_neg e2, if_neg e2, swlow r (by omega)]
          exact hAr r c ⟨hr, hc, Or.inr ⟨by omega, by omega⟩⟩
    · have h1 : r < i ∧ r < c := by omega
      rw [hL r c h1.1 (by omega), hL' r c h1.1 (by omega)]
      exact hAr r c ⟨hr, hc, Or.inr h1⟩
  · intro r q hr hq
    dsimp only
    rw [hb r q hq, hb' r q hq]
    by_cases e1 : r = i
    · rw [if_pos e1, if_pos e1]
      exact hR.mul (hbr p q p2 hq) hinv
    · rw [if_neg e1, if_neg e1]
      by_cases e2 : i < r ∧ r < n
      · rw [if_pos e2, if_pos e2]
        exact hR.upd (hbr _ _ (swn r hr) hq) (hAr _ _ ⟨swn r hr, hi, Or.inl ⟨swge r e2.1.le, le_refl _⟩⟩)
          (hR.mul (hbr p q p2 hq) hinv)
      · rw [if_neg e2, if_neg e2]
        exact hbr _ _ (swn r hr) hq

theorem geBack_rel (hR : OpRel R upd upd') (n nc : Nat) (A b x : Mat K) (A' b' x' : Mat K')
    (h : StRel R n nc n (A, b) (A', b')) (r q : Nat) (hr : r < n) (hq : q < nc) :
    R (geBack n nc A b x r q) (geBack n nc A' b' x' r q) := by
  have key : ∀ d r, r < n → n - r ≤ d → R (geBack n nc A b x r q) (geBack n nc A' b' x' r q) := by
    intro d
    induction d with
    | zero => intro r hr h; omega
    | succ d ih =>
      intro r hr hd
      rw [geBack_gen n nc A b x r q hr hq, geBack_gen n nc A' b' x' r q hr hq]
      have := forRange_inv (fun j (v : K × K') => R v.1 v.2) (r+1) n (by omega)
        (fun j v => (v.1 - A r j * geBack n nc A b x j q, v.2 - A' r j * geBack n nc A' b' x' j q)) (b r q, b' r q)
        (h.2 r q hr hq)
        (fun j v h1 h2 hv => hR.sub hv (hR.mul (h.1 r j ⟨hr, h2, Or.inr ⟨hr, by omega⟩⟩) (ih j h2 (by omega))))
      have split : ∀ m, forRange (r+1) m
          (fun j v => (v.1 - A r j * geBack n nc A b x j q, v.2 - A' r j * geBack n nc A' b' x' j q)) (b r q, b' r q) =
          (forRange (r+1) m (fun j v => v - A r j * geBack n nc A b x j q) (b r q),
           forRange (r+1) m (fun j v => v - A' r j * geBack n nc A' b' x' j q) (b' r q)) := by
        intro m
        unfold forRange
        induction m - (r+1) with
        | zero => rfl
        | succ m ih => rw [forN_succ, forN_succ, forN_succ, ih]
      rw [split n] at this
      exact this
  exact key (n - r) r hr (le_refl _)

/-- if the pivots are the same, the results are related -/
theorem gaussElimT_rel (hR : OpRel R upd upd') (n nc : Nat) (A b x : Mat K) (A' b' x' : Mat K')
    (hA : ∀ r c, r < n → c < n → R (A r c) (A' r c)) (hb : ∀ r q, r < n → q < nc → R (b r q) (b' r q))
    (hp : ∀ i, i < n → StRel R n nc i (forN i (geStepT upd n nc) (A, b)) (forN i (geStepT upd' n nc) (A', b')) →
      pivotRow n i (forN i (geStepT upd n nc) (A, b)).1 = pivotRow n i (forN i (geStepT upd' n nc) (A', b')).1) :
    (∀ i, i ≤ n → StRel R n nc i (forN i (geStepT upd n nc) (A, b)) (forN i (geStepT upd' n nc) (A', b'))) ∧
    ∀ r q, r < n → q < nc → R (gaussElimT upd n nc A b x r q) (gaussElimT upd' n nc A' b' x' r q) := by
  have h : ∀ i, i ≤ n → StRel R n nc i (forN i (geStepT upd n nc) (A, b)) (forN i (geStepT upd' n nc) (A', b')) := by
    intro i
    induction i with
    | zero => exact fun _ => ⟨fun r c h => hA r c h.1 h.2.1, fun r q hr hq => hb r q hr hq⟩
    | succ i ih =>
      intro hi
      have h := ih (by omega)
      rw [forN_succ, forN_succ]
      exact geStepT_rel hR n nc i (by omega) _ _ (hp i (by omega) h) h
  exact ⟨h, fun r q hr hq => geBack_rel hR n nc _ _ x _ _ x' (h n (le_refl _)) r q hr hq⟩

/-- the pivot search only looks at the order of the absolute values in column `i` -/
theorem pivotRow_rel (n i : Nat) (hi : i < n) (A : Mat K) (A' : Mat K')
    (h : ∀ r s, i ≤ r → r < n → i ≤ s → s < n → (fabs (A r i) < fabs (A s i) ↔ fabs (A' r i) < fabs (A' s i))) :
    pivotRow n i A = pivotRow n i A' := by
  have := forRange_inv (fun k (st : (Nat × K) × (Nat × K')) => st.1.1 = st.2.1 ∧ i ≤ st.1.1 ∧ st.1.1 < k ∧
      st.1.2 = fabs (A st.1.1 i) ∧ st.2.2 = fabs (A' st.1.1 i)) (i+1) n (by omega)
    (fun ii st => (if fabs (A ii i) > st.1.2 then (ii, fabs (A ii i)) else st.1,
      if fabs (A' ii i) > st.2.2 then (ii, fabs (A' ii i)) else st.2)) ((i, fabs (A i i)), (i, fabs (A' i i)))
    ⟨rfl, le_refl _, Nat.lt_succ_self _, rfl, rfl⟩
    (by
      rintro k ⟨⟨a, x⟩, ⟨a', x'⟩⟩ h1 h2 ⟨g1, g2, g3, g4, g5⟩
      dsimp only at g1 g2 g3 g4 g5 ⊢
      subst g1
      subst g4 g5
      have hh := h a k g2 (by omega) (by omega) h2
      by_cases e : fabs (A k i) > fabs (A a i)
      · rw [if_pos e, if_pos (show fabs (A' k i) > fabs (A' a i) from hh.1 e)]
        exact ⟨rfl, by dsimp only; omega, by dsimp only; omega, rfl, rfl⟩
      · rw [if_neg e, if_neg (show ¬ fabs (A' k i) > fabs (A' a i) from fun he => e (hh.2 he))]
        exact ⟨rfl, g2, by dsimp only; omega, rfl, rfl⟩)
  have split : ∀ m, forRange (i+1) m
      (fun ii (st : (Nat × K) × (Nat × K')) => (if fabs (A ii i) > st.1.2 then (ii, fabs (A ii i)) else st.1,
      if fabs (A' ii i) > st.2.2 then (ii, fabs (A' ii i)) else st.2)) ((i, fabs (A i i)), (i, fabs (A' i i))) =
      (forRange (i+1) m (fun ii (st : Nat × K) => if fabs (A ii i) > st.2 then (ii, fabs (A ii i)) else st) (i, fabs (A i i)),
       forRange (i+1) m (fun ii (st : Nat × K') => if fabs (A' ii i) > st.2 then (ii, fabs (A' ii i)) else st) (i, fabs (A' i i))) := by
    intro m
    unfold forRange
    induction m - (i+1) with
    | zero => rfl
    | succ m ih => rw [forN_succ, forN_succ, forN_succ, ih]
  rw [split n] at this
  exact this.1

end rel

end TooN.Special
