import Verif.Model.Fill
import Verif.Proof.Ops
import Mathlib.Tactic.Common
/-!
# C12, C13, C50
-/
namespace TooN.Fill
variable {K : Type _}

theorem destroy_eq (f : Bool) (l : List Bool) : destroy (f :: l) = !f := by
  rw [destroy]
  induction l generalizing f with
  | nil => rfl
  | cons a l ih => cases f <;> simp [destroyFrom, ih]

/-- The contents a correct fill of `n` elements from position `N` on must produce. -/
def Stored (v w : Vec K) (N : Nat) (ps : List K) : Prop :=
  (∀ i, i < N → w i = v i) ∧ (∀ i, (h : i < ps.length) → w (N + i) = ps[i]) ∧
  (∀ i, N + ps.length ≤ i → w i = v i)

theorem vecMore_spec (n N : Nat) (hN : N ≤ n) (ps : List K) (v : Vec K) (flags : List Bool) :
    (N + ps.length = n → ∃ w, vecMore n N ps v (decide (N < n) :: flags) = .ok w ∧ Stored v w N ps) ∧
    (n < N + ps.length → vecMore n N ps v (decide (N < n) :: flags) = .overfilled) ∧
    (N + ps.length < n → vecMore n N ps v (decide (N < n) :: flags) = .underfilled) := by
  induction ps generalizing N v flags with
  | nil =>
    simp only [List.length_nil, Nat.add_zero, vecMore, destroy_eq]
    refine ⟨?_, ?_, ?_⟩
    · rintro rfl
      exact ⟨v, by simp, fun i _ => rfl, fun i h => by simp at h, fun i _ => rfl⟩
    · intro h; omega
    · intro h; simp [h]
  | cons p ps ih =>
    simp only [List.length_cons, vecMore]
    by_cases h : N ≥ n
    · rw [if_pos h]
      exact ⟨fun h' => by omega, fun _ => rfl, fun h' => by omega⟩
    · rw [if_neg h]
      obtain ⟨i1, i2, i3⟩ := ih (N+1) (by omega) (Vec.set v N p) (decide (N < n) :: flags)
      refine ⟨fun h' => ?_, fun h' => i2 (by omega), fun h' => i3 (by omega)⟩
      obtain ⟨w, hw, s1, s2, s3⟩ := i1 (by omega)
      refine ⟨w, hw, ?_, ?_, ?_⟩
      · intro i hi; rw [s1 i (by omega), Vec.set_ne _ _ _ _ (by omega)]
      · intro i hi
        cases i with
        | zero => rw [Nat.add_zero, s1 N (by omega), Vec.set_self]; rfl
        | succ i =>
          simp only [List.length_cons, Nat.add_lt_add_iff_right] at hi
          have := s2 i hi
          rw [show N + (i+1) = N + 1 + i by omega, this]; rfl
      · intro i hi
        simp only [List.length_cons] at hi
        rw [s3 i (by omega), Vec.set_ne _ _ _ _ (by omega)]

/-- **C12** for every vector size except 1: `Fill(v) = x0, …, x(k-1)` succeeds exactly when `k = n`,
then `v[i] = xi` and nothing else is written; too many values are reported as overfill, too few as
underfill.  `_partial`: the full claim also covers `n = 1`, where it is false
(`c12_fill_vector_size_one`). -/
theorem c12_fill_vector_partial (n : Nat) (hn : n ≠ 1) (x : K) (xs : List K) (v : Vec K) :
    ((x :: xs).length = n → ∃ w, fillVector n x xs v = .ok w ∧ Stored v w 0 (x :: xs)) ∧
    (n < (x :: xs).length → fillVector n x xs v = .overfilled) ∧
    ((x :: xs).length < n → fillVector n x xs v = .underfilled) := by
  simp only [fillVector, List.length_cons]
  by_cases h : 1 ≥ n
  · rw [if_pos h]
    exact ⟨fun h' => by omega, fun _ => rfl, fun h' => by omega⟩
  · rw [if_neg h]
    obtain ⟨i1, i2, i3⟩ := vecMore_spec n 1 (by omega) xs (Vec.set v 0 x) []
    refine ⟨fun h' => ?_, fun h' => i2 (by omega), fun h' => i3 (by omega)⟩
    obtain ⟨w, hw, s1, s2, s3⟩ := i1 (by omega)
    refine ⟨w, hw, fun i hi => by omega, ?_, ?_⟩
    · intro i hi
      cases i with
      | zero => rw [s1 0 (by omega), Vec.set_self]; rfl
      | succ i =>
        simp only [List.length_cons, Nat.add_lt_add_iff_right] at hi
        have := s2 i hi
        rw [show 0 + (i+1) = 1 + i by omega, this]; rfl
    · intro i hi
      simp only [List.length_cons] at hi
      rw [s3 i (by omega), Vec.set_ne _ _ _ _ (by omega)]

/-- **C12, negative**: filling a size-1 vector with its one value is reported as overfilled
(`CheckOverFill<1, Size>` where index 0 is written). -/
theorem c12_fill_vector_size_one (x : K) (xs : List K) (v : Vec K) :
    fillVector 1 x xs v = .overfilled := rfl

/-- the full claim C12 is therefore false of the code -/
theorem c12_full_claim_false :
    ¬ (∀ (n : Nat) (x : Nat) (xs : List Nat) (v : Vec Nat), (x :: xs).length = n →
        ∃ w, fillVector n x xs v = .ok w) := by
  intro h
  obtain ⟨w, hw⟩ := h 1 7 [] (fun _ => 0) rfl
  cases hw

example : ∃ w, fillVector 3 5 [6, 7] (fun _ => 0) = .ok w ∧ w 0 = 5 ∧ w 1 = 6 ∧ w 2 = 7 := by
  refine ⟨_, rfl, ?_, ?_, ?_⟩ <;> decide

/-! ## C13 -/

/-- row-major contents from running index `N` on. -/
def StoredM (C : Nat) (m w : Mat K) (N : Nat) (ps : List K) : Prop :=
  (∀ i, (h : i < ps.length) → w ((N + i) / C) ((N + i) % C) = ps[i]) ∧
  (∀ r c, c < C → (r * C + c < N ∨ N + ps.length ≤ r * C + c) → w r c = m r c) ∧
  (∀ r c, C ≤ c → w r c = m r c)

theorem matMore_spec (R C : Nat) (hC : 0 < C) (N : Nat) (hN : N ≤ R * C) (ps : List K) (m : Mat K)
    (flags : List Bool) :
    (N + ps.length = R * C →
      ∃ w, matMore R C N (N / C) (N % C) ps m (decide (N / C < R) :: flags) = .ok w ∧ StoredM C m w N ps) ∧
    (R * C < N + ps.length → matMore R C N (N / C) (N % C) ps m (decide (N / C < R) :: flags) = .overfilled) ∧
    (N + ps.length < R * C → matMore R C N (N / C) (N % C) ps m (decide (N / C < R) :: flags) = .underfilled) := by
  induction ps generalizing N m flags with
  | nil =>
    simp only [List.length_nil, Nat.add_zero, matMore, destroy_eq]
    refine ⟨?_, ?_, ?_⟩
    · intro h
      have : ¬ N / C < R := by rw [h, Nat.mul_div_cancel _ hC]; omega
      exact ⟨m, by simp [this], fun i h => by simp at h, fun _ _ _ _ => rfl, fun _ _ _ => rfl⟩
    · intro h; omega
    · intro h
      have : N / C < R := Nat.div_lt_of_lt_mul (by rw [Nat.mul_comm]; exact h)
      simp [this]
  | cons p ps ih =>
    simp only [List.length_cons, matMore]
    by_cases h : N ≥ R * C
    · rw [if_pos h]
      exact ⟨fun h' => by omega, fun _ => rfl, fun h' => by omega⟩
    · rw [if_neg h]
      have hr : N / C < R := Nat.div_lt_of_lt_mul (by rw [Nat.mul_comm]; omega)
      have hc : N % C < C := Nat.mod_lt _ hC
      have hdm : C * (N / C) + N % C = N := Nat.div_add_mod N C
      rw [if_neg (by simp [hr, hc])]
      obtain ⟨i1, i2, i3⟩ := ih (N+1) (by omega) (Mat.set m (N/C) (N%C) p) (decide (N/C < R) :: flags)
      -- the new position is the row-major successor
      have hstep : ∀ m' fl, (if N % C + 1 = C then matMore R C (N+1) (N/C+1) 0 ps m' (decide (N/C+1 < R) :: fl)
          else matMore R C (N+1) (N/C) (N%C+1) ps m' (decide (N/C < R) :: fl)) =
          matMore R C (N+1) ((N+1)/C) ((N+1)%C) ps m' (decide ((N+1)/C < R) :: fl) := by
        intro m' fl
        by_cases e : N % C + 1 = C
        · have e1 : N + 1 = C * (N/C+1) := by rw [Nat.mul_add]; omega
          have d1 : (N+1)/C = N/C+1 := by rw [e1, Nat.mul_div_cancel_left _ hC]
          have d2 : (N+1)%C = 0 := by rw [e1, Nat.mul_mod_right]
          rw [if_pos e, d1, d2]
        · have e1 : N + 1 = (N%C+1) + C * (N/C) := by omega
          have hlt : N % C + 1 < C := by omega
          have d1 : (N+1)/C = N/C := by
            rw [e1, Nat.add_mul_div_left _ _ hC, Nat.div_eq_of_lt hlt, Nat.zero_add]
          have d2 : (N+1)%C = N%C+1 := by
            rw [e1, Nat.add_mul_mod_self_left, Nat.mod_eq_of_lt hlt]
          rw [if_neg e, d1, d2]
      rw [hstep]
      refine ⟨fun h' => ?_, fun h' => i2 (by omega), fun h' => i3 (by omega)⟩
      obtain ⟨w, hw, s1, s2, s3⟩ := i1 (by omega)
      have hpos : (N/C) * C + N%C = N := by rw [Nat.mul_comm]; exact hdm
      refine ⟨w, hw, ?_, ?_, ?_⟩
      · intro i hi
        cases i with
        | zero =>
          rw [Nat.add_zero, s2 _ _ hc (Or.inl (by omega)), Mat.set_self]; rfl
        | succ i =>
          simp only [List.length_cons, Nat.add_lt_add_iff_right] at hi
          have := s1 i hi
          rw [show N + (i+1) = N + 1 + i by omega, this]; rfl
      · intro r c hc' hor
        simp only [List.length_cons] at hor
        rw [s2 r c hc' (by omega), Mat.set_ne]
        rintro ⟨rfl, rfl⟩; omega
      · intro r c hc'
        rw [s3 r c hc', Mat.set_ne]
        rintro ⟨rfl, rfl⟩; omega

/-- **C13** for matrices with at least two columns (or no elements): `Fill(m) = x0, …, x(k-1)` succeeds
exactly when `k = rows*cols`; then `m(r,c) = x(r*cols+c)` and nothing else is written; otherwise the
right diagnostic is given.  `_partial`: the full claim also covers one-column matrices, where it is
false (`c13_one_column_never_succeeds`). -/
theorem c13_fill_matrix_partial (R C : Nat) (hC : C ≠ 1) (x : K) (xs : List K) (m : Mat K) :
    ((x :: xs).length = R * C → ∃ w, fillMatrix R C x xs m = .ok w ∧ StoredM C m w 0 (x :: xs)) ∧
    (R * C < (x :: xs).length → fillMatrix R C x xs m = .overfilled) ∧
    ((x :: xs).length < R * C → fillMatrix R C x xs m = .underfilled) := by
  simp only [fillMatrix, List.length_cons]
  by_cases h : 0 ≥ R * C
  · rw [if_pos h]
    exact ⟨fun h' => by omega, fun _ => rfl, fun h' => by omega⟩
  · rw [if_neg h]
    have hR : 0 < R := Nat.pos_of_ne_zero (by rintro rfl; simp at h)
    have hC0 : 0 < C := Nat.pos_of_ne_zero (by rintro rfl; simp at h)
    have d1 : 1 / C = 0 := Nat.div_eq_of_lt (by omega)
    have d2 : 1 % C = 1 := Nat.mod_eq_of_lt (by omega)
    obtain ⟨i1, i2, i3⟩ := matMore_spec R C hC0 1 (by omega) xs (Mat.set m 0 0 x) []
    rw [d1, d2] at i1 i2 i3
    refine ⟨fun h' => ?_, fun h' => i2 (by omega), fun h' => i3 (by omega)⟩
    obtain ⟨w, hw, s1, s2, s3⟩ := i1 (by omega)
    refine ⟨w, hw, ?_, ?_, ?_⟩
    · intro i hi
      cases i with
      | zero =>
        simp only [Nat.add_zero, Nat.zero_div, Nat.zero_mod]
        rw [s2 0 0 hC0 (Or.inl (by simp)), Mat.set_self]; rfl
      | succ i =>
        simp only [List.length_cons, Nat.add_lt_add_iff_right] at hi
        have := s1 i hi
        rw [show 0 + (i+1) = 1 + i by omega, this]; rfl
    · intro r c hc' hor
      simp only [List.length_cons] at hor
      rw [s2 r c hc' (by omega), Mat.set_ne]
      rintro ⟨rfl, rfl⟩; omega
    · intro r c hc'
      rw [s3 r c hc', Mat.set_ne]
      rintro ⟨rfl, rfl⟩; omega

/-- readable corollary: the element formula -/
theorem c13_row_major (R C : Nat) (hC : C ≠ 1) (x : K) (xs : List K) (m : Mat K)
    (hk : (x :: xs).length = R * C) :
    ∃ w, fillMatrix R C x xs m = .ok w ∧
      ∀ r c, r < R → c < C → some (w r c) = (x :: xs)[r * C + c]? := by
  obtain ⟨w, hw, s1, _, _⟩ := (c13_fill_matrix_partial R C hC x xs m).1 hk
  refine ⟨w, hw, ?_⟩
  intro r c hr hc
  have hlt : r * C + c < (x :: xs).length := by
    rw [hk]
    calc r * C + c < r * C + C := by omega
      _ = (r+1) * C := by rw [Nat.succ_mul]
      _ ≤ R * C := Nat.mul_le_mul_right _ hr
  have := s1 _ hlt
  have d1 : (0 + (r * C + c)) / C = r := by
    rw [Nat.zero_add, Nat.mul_comm, Nat.mul_add_div (by omega), Nat.div_eq_of_lt hc, Nat.add_zero]
  have d2 : (0 + (r * C + c)) % C = c := by
    rw [Nat.zero_add, Nat.mul_comm, Nat.mul_add_mod, Nat.mod_eq_of_lt hc]
  rw [d1, d2] at this
  rw [this, List.getElem?_eq_getElem hlt]

/-- **C13, negative**: on a one-column matrix `Fill` never succeeds, whatever values are given. -/
theorem c13_one_column_never_succeeds (R : Nat) (x : K) (xs : List K) (m : Mat K) :
    ∀ w, fillMatrix R 1 x xs m ≠ .ok w := by
  intro w
  simp only [fillMatrix]
  split
  · simp
  · cases xs with
    | nil =>
      have : 0 < R := by omega
      simp [matMore, destroy_eq, this]
    | cons p ps =>
      rw [matMore]
      split <;> simp

theorem c13_full_claim_false :
    ¬ (∀ (R C : Nat) (x : Nat) (xs : List Nat) (m : Mat Nat), (x :: xs).length = R * C →
        ∃ w, fillMatrix R C x xs m = .ok w) := by
  intro h
  obtain ⟨w, hw⟩ := h 2 1 7 [8] (fun _ _ => 0) rfl
  exact c13_one_column_never_succeeds 2 7 [8] _ w hw

example : ∃ w, fillMatrix 2 2 1 [2, 3, 4] (fun _ _ => 0) = .ok w ∧ w 0 0 = 1 ∧ w 0 1 = 2 ∧ w 1 0 = 3 ∧ w 1 1 = 4 := by
  refine ⟨_, rfl, ?_, ?_, ?_, ?_⟩ <;> decide

/-! ## C50 -/

/-- **C50** `makeVector` has the number of arguments as size and the arguments as elements, whatever the
storage contained. -/
theorem c50_make_vector (xs : List K) (dflt : K) (u : Vec K) :
    (makeVector xs dflt u).1 = xs.length ∧
    ∀ i (h : i < xs.length), (makeVector xs dflt u).2 i = xs[i] := by
  refine ⟨rfl, fun i h => ?_⟩
  simp only [makeVector]
  rw [forN_vecset xs.length (fun i => xs.getD i dflt), if_pos h]; simp [h]

/-- **C50** `Data(...)` assigned to a vector. -/
theorem c50_data_vector (size : Nat) (vals : List K) (dflt : K) (v : Vec K) :
    (size ≠ vals.length → dataEvalV size vals dflt v = .abort) ∧
    (size = vals.length → ∃ w, dataEvalV size vals dflt v = .ok w ∧
      (∀ i (h : i < vals.length), w i = vals[i]) ∧ ∀ i, vals.length ≤ i → w i = v i) := by
  constructor
  · intro h; simp [dataEvalV, h]
  · intro h
    refine ⟨_, by rw [dataEvalV, if_neg (by simpa using h)], ?_, ?_⟩
    · intro i hi; rw [forN_vecset vals.length (fun i => vals.getD i dflt), if_pos hi]; simp [hi]
    · intro i hi; rw [forN_vecset vals.length (fun i => vals.getD i dflt), if_neg (by omega)]

theorem data_inner (C r n : Nat) (vals : List K) (dflt : K) (m : Mat K) :
    let st := forN C (fun c (st : Mat K × Nat) => (Mat.set st.1 r c (vals.getD st.2 dflt), st.2 + 1)) (m, n)
    st.2 = n + C ∧ ∀ i j, st.1 i j = if i = r ∧ j < C then vals.getD (n + j) dflt else m i j := by
  induction C with
  | zero => simp
  | succ C ih =>
    obtain ⟨h1, h2⟩ := ih
    refine ⟨by simp only [forN_succ]; rw [h1]; omega, ?_⟩
    intro i j
    simp only [forN_succ]
    rw [Mat.set]
    by_cases e : i = r ∧ j = C
    · rw [if_pos e, if_pos (by omega), h1, e.2]
    · rw [if_neg e, h2]
      by_cases e2 : i = r ∧ j < C
      · rw [if_pos e2, if_pos (by omega)]
      · rw [if_neg e2, if_neg (by omega)]

theorem data_outer (R C : Nat) (vals : List K) (dflt : K) (m : Mat K) :
    let st := forN R (fun r (st : Mat K × Nat) =>
      forN C (fun c (st : Mat K × Nat) => (Mat.set st.1 r c (vals.getD st.2 dflt), st.2 + 1)) st) (m, 0)
    st.2 = R * C ∧ ∀ i j, st.1 i j = if i < R ∧ j < C then vals.getD (i * C + j) dflt else m i j := by
  induction R with
  | zero => simp
  | succ R ih =>
    obtain ⟨h1, h2⟩ := ih
    simp only [forN_succ]
    obtain ⟨k1, k2⟩ := data_inner C R (forN R (fun r (st : Mat K × Nat) =>
      forN C (fun c (st : Mat K × Nat) => (Mat.set st.1 r c (vals.getD st.2 dflt), st.2 + 1)) st) (m, 0)).2
      vals dflt (forN R (fun r (st : Mat K × Nat) =>
      forN C (fun c (st : Mat K × Nat) => (Mat.set st.1 r c (vals.getD st.2 dflt), st.2 + 1)) st) (m, 0)).1
    refine ⟨by rw [k1, h1, Nat.succ_mul], ?_⟩
    intro i j
    rw [k2, h1]
    by_cases e : i = R ∧ j < C
    · rw [if_pos e, if_pos (by omega), e.1]
    · rw [if_neg e, h2]
      by_cases e2 : i < R ∧ j < C
      · rw [if_pos e2, if_pos (by omega)]
      · rw [if_neg e2, if_neg (by omega)]

/-- **C50** `Data(...)` fills a statically sized matrix row by row.  `_partial`: for a Dynamic dimension the
claim is false, see `c50_data_dynamic_writes_nothing`. -/
theorem c50_data_matrix_partial (rows cols : Nat) (vals : List K) (dflt : K) (m : Mat K) :
    (rows * cols ≠ vals.length → dataEvalM (some rows) (some cols) rows cols vals dflt m = .abort) ∧
    (rows * cols = vals.length → ∃ w, dataEvalM (some rows) (some cols) rows cols vals dflt m = .ok w ∧
      (∀ r c, r < rows → c < cols → some (w r c) = vals[r * cols + c]?) ∧
      (∀ r c, ¬ (r < rows ∧ c < cols) → w r c = m r c)) := by
  constructor
  · intro h; simp [dataEvalM, h]
  · intro h
    obtain ⟨_, h2⟩ := data_outer rows cols vals dflt m
    refine ⟨_, by rw [dataEvalM, if_neg (by simpa using h)], ?_, ?_⟩
    · intro r c hr hc
      simp only [Option.getD_some]
      rw [h2, if_pos ⟨hr, hc⟩]
      have hlt : r * cols + c < vals.length := by
        rw [← h]
        calc r * cols + c < r * cols + cols := by omega
          _ = (r+1) * cols := by rw [Nat.succ_mul]
          _ ≤ rows * cols := Nat.mul_le_mul_right _ hr
      simp [hlt]
    · intro r c hrc
      simp only [Option.getD_some]
      rw [h2, if_neg hrc]

/-- **C50, negative**: on a matrix with a Dynamic dimension, a correctly sized `Data(...)` passes the size
test and then writes nothing at all. -/
theorem c50_data_dynamic_writes_nothing (R C : SSize) (hd : R = none ∨ C = none) (rows cols : Nat)
    (vals : List K) (dflt : K) (m : Mat K) (h : rows * cols = vals.length) :
    dataEvalM R C rows cols vals dflt m = .ok m := by
  rw [dataEvalM, if_neg (by simpa using h)]
  rcases hd with rfl | rfl
  · simp
  · simp only [Option.getD_none]
    congr 1
    have := (data_outer (R.getD 0) 0 vals dflt m).2
    funext i j
    rw [this]; simp

example : dataEvalM none none 1 2 [3, 4] 0 (fun _ _ => (77 : Nat)) = .ok (fun _ _ => 77) :=
  c50_data_dynamic_writes_nothing none none (Or.inl rfl) 1 2 [3,4] 0 _ rfl

example : (makeVector [4, 5, 6] 0 (fun _ => (9 : Nat))).2 1 = 5 := by decide

end TooN.Fill
