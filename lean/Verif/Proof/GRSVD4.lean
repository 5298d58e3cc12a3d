import Verif.Proof.GRSVD3
/-! # GR_SVD: the diagonalisation -/
set_option linter.unusedSectionVars false
set_option linter.unusedVariables false
namespace TooN.GRSVD
open Finset
open scoped Classical
noncomputable section

/-- rotation of two entries of a row -/
def rotRow (p q : Nat) (c s : ℝ) (u : Vec ℝ) : Vec ℝ :=
  fun j => if j = q then -u p * s + u q * c else if j = p then u p * c + u q * s else u j

def negRow (k : Nat) (u : Vec ℝ) : Vec ℝ := fun j => if j = k then -u j else u j

theorem rotCols_row (R p q : Nat) (hpq : p ≠ q) (c s : ℝ) (X : Mat ℝ) (a : Nat) (ha : a < R) :
    rotCols R p q c s X a = rotRow p q c s (X a) := by
  have := forN_inv (fun n (Y : Mat ℝ) => ∀ a b, Y a b = if a < n then rotRow p q c s (X a) b else X a b) R
    (fun j X =>
      let y := X j p
      let z := X j q
      Mat.set (Mat.set X j p (y * c + z * s)) j q (-y * s + z * c)) X (fun a b => by simp) ?_
  · funext b; rw [rotCols, this a b, if_pos ha]
  intro n Y hn ih a b
  simp only [Mat.set]
  have hp := ih n p
  have hq := ih n q
  rw [if_neg (by omega)] at hp hq
  rw [hp, hq]
  by_cases e : a = n
  · subst e
    have hb := ih a b
    rw [if_neg (show ¬ a < a by omega)] at hb
    rw [if_pos (show a < a + 1 by omega)]
    simp only [rotRow, true_and]
    rw [hb]
  · simp only [e, false_and, if_false]
    rw [ih a b]
    by_cases g : a < n
    · rw [if_pos g, if_pos (by omega)]
    · rw [if_neg g, if_neg (by omega)]

theorem negCol_row (R k : Nat) (X : Mat ℝ) (a : Nat) (ha : a < R) :
    forN R (fun j V => Mat.set V j k (-V j k)) X a = negRow k (X a) := by
  have := forN_inv (fun n (Y : Mat ℝ) => ∀ a b, Y a b = if a < n then negRow k (X a) b else X a b) R
    (fun j V => Mat.set V j k (-V j k)) X (fun a b => by simp) ?_
  · funext b; rw [this a b, if_pos ha]
  intro n Y hn ih a b
  simp only [Mat.set]
  have hp := ih n k
  rw [if_neg (by omega)] at hp
  rw [hp]
  by_cases e : a = n
  · subst e
    have hb := ih a b
    rw [if_neg (show ¬ a < a by omega)] at hb
    rw [if_pos (show a < a + 1 by omega)]
    simp only [negRow, true_and]
    rw [hb]
    by_cases g : b = k
    · rw [if_pos g, if_pos g, g]
    · rw [if_neg g, if_neg g]
  · simp only [e, false_and, if_false]
    rw [ih a b]
    by_cases g : a < n
    · rw [if_pos g, if_pos (by omega)]
    · rw [if_neg g, if_neg (by omega)]

/-- the products of rotations and sign changes of columns -/
inductive RowT (N : Nat) : (Vec ℝ → Vec ℝ) → Prop
  | id : RowT N (fun u => u)
  | rot {T : Vec ℝ → Vec ℝ} (p q : Nat) (c s : ℝ) (hp : p < N) (hq : q < N) (hne : p ≠ q) (hcs : c * c + s * s = 1) :
      RowT N T → RowT N (fun u => rotRow p q c s (T u))
  | neg {T : Vec ℝ → Vec ℝ} (k : Nat) (hk : k < N) : RowT N T → RowT N (fun u => negRow k (T u))

theorem RowT.comp {N : Nat} {S T : Vec ℝ → Vec ℝ} (hS : RowT N S) (hT : RowT N T) : RowT N (fun u => S (T u)) := by
  induction hS with
  | id => exact hT
  | rot p q c s hp hq hne hcs _ ih => exact .rot p q c s hp hq hne hcs ih
  | neg k hk _ ih => exact .neg k hk ih

/-- a sum in which two terms change -/
theorem sum_two (N p q : Nat) (hp : p < N) (hq : q < N) (hne : p ≠ q) (f g : Nat → ℝ)
    (h : ∀ j, j ≠ p → j ≠ q → f j = g j) (h2 : f p + f q = g p + g q) : ∑ j ∈ range N, f j = ∑ j ∈ range N, g j := by
  have key : ∀ f : Nat → ℝ, ∑ j ∈ range N, f j = f p + (f q + ∑ j ∈ ((range N).erase p).erase q, f j) := by
    intro f
    rw [← Finset.add_sum_erase (range N) f (mem_range.mpr hp),
      ← Finset.add_sum_erase ((range N).erase p) f (mem_erase.mpr ⟨hne.symm, mem_range.mpr hq⟩)]
  rw [key f, key g, Finset.sum_congr rfl (fun j hj => by
    rw [mem_erase, mem_erase] at hj
    exact h j hj.2.1 hj.1 : ∀ j ∈ ((range N).erase p).erase q, f j = g j)]
  linarith

theorem rot_dot (N p q : Nat) (hp : p < N) (hq : q < N) (hne : p ≠ q) (c s : ℝ) (hcs : c * c + s * s = 1) (u w : Vec ℝ) :
    ∑ j ∈ range N, rotRow p q c s u j * rotRow p q c s w j = ∑ j ∈ range N, u j * w j := by
  refine sum_two N p q hp hq hne _ _ ?_ ?_
  · intro j h1 h2; simp only [rotRow]; rw [if_neg h2, if_neg h1, if_neg h2, if_neg h1]
  · simp only [rotRow, hne, if_true, if_false]
    linear_combination (u p * w p + u q * w q) * hcs

theorem RowT.dot {N : Nat} {T : Vec ℝ → Vec ℝ} (hT : RowT N T) (u w : Vec ℝ) :
    ∑ j ∈ range N, T u j * T w j = ∑ j ∈ range N, u j * w j := by
  induction hT with
  | id => rfl
  | rot p q c s hp hq hne hcs _ ih => rw [rot_dot N p q hp hq hne c s hcs, ih]
  | neg k hk _ ih =>
    rw [← ih]
    refine Finset.sum_congr rfl (fun j _ => ?_)
    simp only [negRow]
    split <;> ring

theorem RowT.add {N : Nat} {T : Vec ℝ → Vec ℝ} (hT : RowT N T) (x y : ℝ) (u w : Vec ℝ) :
    T (fun j => x * u j + y * w j) = fun j => x * T u j + y * T w j := by
  induction hT with
  | id => rfl
  | rot p q c s hp hq hne hcs _ ih =>
    funext j
    simp only [rotRow, ih]
    split
    · ring
    · split
      · ring
      · rfl
  | neg k hk _ ih =>
    funext j
    simp only [negRow, ih]
    split
    · ring
    · rfl

/-- `row k d e v p`: row `p` of the bidiagonal matrix, entries beyond `k` of the superdiagonal left out, times `v` -/
def row (k : Nat) (d e v : Vec ℝ) (p : Nat) : ℝ := d p * v p + (if p + 1 ≤ k then e (p + 1) else 0) * v (p + 1)

def form (N k : Nat) (d e u v : Vec ℝ) : ℝ := ∑ p ∈ range N, u p * row k d e v p

def sq (N : Nat) (u : Vec ℝ) : ℝ := ∑ p ∈ range N, u p * u p

theorem abs_le_one {N : Nat} {u : Vec ℝ} (h : sq N u ≤ 1) (p : Nat) (hp : p < N) : |u p| ≤ 1 := by
  have h1 : u p * u p ≤ sq N u :=
    Finset.single_le_sum (f := fun p => u p * u p) (fun i _ => mul_self_nonneg _) (mem_range.mpr hp)
  exact abs_le_of_sq_le_sq (by nlinarith) (by norm_num)

/-- dropping one entry of the matrix -/
theorem drop_err (N m j : Nat) (hm : m < N) (hj : j < N) (x ε : ℝ) (hx : |x| ≤ ε) (u v r r' : Vec ℝ) (hu : sq N u ≤ 1) (hv : sq N v ≤ 1)
    (h : ∀ p, p ≠ m → r p = r' p) (hm' : r m = r' m + x * v j) :
    |∑ p ∈ range N, u p * r p - ∑ p ∈ range N, u p * r' p| ≤ ε := by
  rw [← Finset.sum_sub_distrib, Finset.sum_eq_single m]
  · rw [← mul_sub, hm', show r' m + x * v j - r' m = x * v j by ring, abs_mul, abs_mul]
    have h1 := abs_le_one hu m hm
    have h2 := abs_le_one hv j hj
    have h3 : |x| * |v j| ≤ |x| := by nlinarith [abs_nonneg x]
    nlinarith [abs_nonneg x, abs_nonneg (v j), abs_nonneg (u m), mul_nonneg (abs_nonneg x) (abs_nonneg (v j))]
  · intro p _ hp; rw [h p hp]; ring
  · intro hh; exact absurd (mem_range.mpr hm) hh

/-- rotating the columns of `U` and the rows of the matrix -/
theorem rot_form (N p q : Nat) (hp : p < N) (hq : q < N) (hne : p ≠ q) (c s : ℝ) (hcs : c * c + s * s = 1) (u r r' : Vec ℝ)
    (h : ∀ j, j ≠ p → j ≠ q → r' j = r j) (h1 : r' p = c * r p + s * r q) (h2 : r' q = -s * r p + c * r q) :
    ∑ j ∈ range N, rotRow p q c s u j * r' j = ∑ j ∈ range N, u j * r j := by
  refine sum_two N p q hp hq hne _ _ ?_ ?_
  · intro j h3 h4; simp only [rotRow]; rw [if_neg h4, if_neg h3, h j h3 h4]
  · simp only [rotRow, hne, if_true, if_false]
    rw [h1, h2]
    linear_combination (u p * r p + u q * r q) * hcs

end
end TooN.GRSVD
