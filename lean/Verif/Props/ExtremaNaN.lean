import Verif.Props.Extrema
import Verif.Proof.XF
import Verif.Proof.Bridge
/-!
# C86: min/max queries on IEEE numbers

`Model/Helpers.lean`'s functions at the type `XF G` of an IEEE format (`Spec/MachIEEE.lean`): finite numbers, infinities and NaN.
`less`/`greater` are `std::less`/`std::greater`; a comparison with a NaN is false.  In the per-row and per-column forms the index is
stored in a vector of the *element type* (`Vector<Dynamic,Precision>* bestIndices`, helpers.h:631, 699).
-/
set_option linter.unusedSectionVars false
namespace TooN.Helpers
open scoped Classical

/-- what the queries return on `v[0..n)`: if the first element is NaN then that NaN with index 0; otherwise the smallest of the elements
that are not NaN and the first place where it occurs -/
structure FirstMinN {G : Grid} (n : Nat) (v : Nat → XF G) (x : XF G) (i : Nat) : Prop where
  lt : i < n
  val : x = v i
  nan : v 0 = .nan → i = 0
  num : v 0 ≠ .nan → x ≠ .nan
  le : v 0 ≠ .nan → ∀ j, j < n → v j ≠ .nan → x ≤ v j
  first : ∀ j, j < i → v j ≠ .nan → x < v j

structure FirstMaxN {G : Grid} (n : Nat) (v : Nat → XF G) (x : XF G) (i : Nat) : Prop where
  lt : i < n
  val : x = v i
  nan : v 0 = .nan → i = 0
  num : v 0 ≠ .nan → x ≠ .nan
  ge : v 0 ≠ .nan → ∀ j, j < n → v j ≠ .nan → v j ≤ x
  first : ∀ j, j < i → v j ≠ .nan → v j < x

/-- the same for a matrix in row-major order -/
structure FirstMinMN {G : Grid} (R C : Nat) (m : Nat → Nat → XF G) (x : XF G) (r c : Nat) : Prop where
  ltr : r < R
  ltc : c < C
  val : x = m r c
  nan : m 0 0 = .nan → r = 0 ∧ c = 0
  num : m 0 0 ≠ .nan → x ≠ .nan
  le : m 0 0 ≠ .nan → ∀ r' c', r' < R → c' < C → m r' c' ≠ .nan → x ≤ m r' c'
  first : ∀ r' c', c' < C → (r' < r ∨ (r' = r ∧ c' < c)) → m r' c' ≠ .nan → x < m r' c'

structure FirstMaxMN {G : Grid} (R C : Nat) (m : Nat → Nat → XF G) (x : XF G) (r c : Nat) : Prop where
  ltr : r < R
  ltc : c < C
  val : x = m r c
  nan : m 0 0 = .nan → r = 0 ∧ c = 0
  num : m 0 0 ≠ .nan → x ≠ .nan
  ge : m 0 0 ≠ .nan → ∀ r' c', r' < R → c' < C → m r' c' ≠ .nan → m r' c' ≤ x
  first : ∀ r' c', c' < C → (r' < r ∨ (r' = r ∧ c' < c)) → m r' c' ≠ .nan → m r' c' < x

section generic
variable {K : Type _} {cmp : K → K → Bool} {N : K → Prop}

/-- a comparison that is a strict weak order on the elements that satisfy `¬ N` and false on the others -/
structure Cmp (cmp : K → K → Bool) (N : K → Prop) : Prop where
  num : ∀ a b, cmp a b = true → ¬ N a ∧ ¬ N b
  trans : ∀ a b c, cmp a b = true → ¬ N c → ¬ cmp c b = true → cmp a c = true
  asymm : ∀ a b, cmp a b = true → ¬ cmp b a = true

variable (h : Cmp cmp N)
include h

theorem loopN (n : Nat) (hn : 1 ≤ n) (v : Vec K) :
    let s := forRange 1 n (fun ii (s : K × Nat) => if cmp (v ii) s.1 then (v ii, ii) else s) (v 0, 0)
    s.2 < n ∧ s.1 = v s.2 ∧ (N (v 0) → s.2 = 0) ∧ (¬ N (v 0) → ¬ N s.1) ∧
      (∀ j, j < n → ¬ N (v j) → ¬ cmp (v j) s.1 = true) ∧ (∀ j, j < s.2 → ¬ N (v j) → cmp s.1 (v j) = true) := by
  refine forRange_inv (fun k (s : K × Nat) => s.2 < k ∧ s.1 = v s.2 ∧ (N (v 0) → s.2 = 0) ∧ (¬ N (v 0) → ¬ N s.1) ∧
      (∀ j, j < k → ¬ N (v j) → ¬ cmp (v j) s.1 = true) ∧ (∀ j, j < s.2 → ¬ N (v j) → cmp s.1 (v j) = true)) 1 n hn _ _ ?_ ?_
  · refine ⟨Nat.one_pos, rfl, fun _ => rfl, id, fun j hj _ hc => ?_, fun j hj => absurd hj (Nat.not_lt_zero j)⟩
    rw [show j = 0 by omega] at hc
    exact h.asymm _ _ hc hc
  · rintro i t hi _ ⟨h1, h2, h3, h4, h5, h6⟩
    by_cases hc : cmp (v i) t.1 = true
    · rw [if_pos hc]
      obtain ⟨na, nb⟩ := h.num _ _ hc
      have hlt : ∀ j, j < i → ¬ N (v j) → cmp (v i) (v j) = true := fun j hj hN => h.trans _ _ _ hc hN (h5 j hj hN)
      refine ⟨Nat.lt_succ_self i, rfl, fun hN => ?_, fun _ => na, fun j hj hN hcc => ?_, hlt⟩
      · exact absurd (by rw [h2, h3 hN]; exact hN) nb
      · rcases Nat.lt_succ_iff_lt_or_eq.1 hj with hj | rfl
        · exact h.asymm _ _ (hlt j hj hN) hcc
        · exact h.asymm _ _ hcc hcc
    · rw [if_neg hc]
      refine ⟨by omega, h2, h3, h4, fun j hj hN => ?_, h6⟩
      rcases Nat.lt_succ_iff_lt_or_eq.1 hj with hj | rfl
      · exact h5 j hj hN
      · exact hc

theorem loopMN (R C : Nat) (hR : 1 ≤ R) (hC : 1 ≤ C) (m : Mat K) :
    let s := forN R (fun r s => forN C (fun c (s : K × (Nat × Nat)) => if cmp (m r c) s.1 then (m r c, (r, c)) else s) s)
      (m 0 0, (0, 0))
    s.2.1 < R ∧ s.2.2 < C ∧ s.1 = m s.2.1 s.2.2 ∧ (N (m 0 0) → s.2 = (0, 0)) ∧ (¬ N (m 0 0) → ¬ N s.1) ∧
      (∀ r' c', r' < R → c' < C → ¬ N (m r' c') → ¬ cmp (m r' c') s.1 = true) ∧
      (∀ r' c', c' < C → (r' < s.2.1 ∨ (r' = s.2.1 ∧ c' < s.2.2)) → ¬ N (m r' c') → cmp s.1 (m r' c') = true) := by
  let Inv : Nat → Nat → K × (Nat × Nat) → Prop := fun r c s =>
    s.2.1 < R ∧ s.2.2 < C ∧ s.1 = m s.2.1 s.2.2 ∧ (N (m 0 0) → s.2 = (0, 0)) ∧ (¬ N (m 0 0) → ¬ N s.1) ∧
    (∀ r' c', c' < C → (r' < r ∨ (r' = r ∧ c' < c)) → ¬ N (m r' c') → ¬ cmp (m r' c') s.1 = true) ∧
    (∀ r' c', c' < C → (r' < s.2.1 ∨ (r' = s.2.1 ∧ c' < s.2.2)) → ¬ N (m r' c') → cmp s.1 (m r' c') = true) ∧
    (s.2 = (0, 0) ∨ s.2.1 < r ∨ (s.2.1 = r ∧ s.2.2 < c))
  have key := forN_inv (fun r s => Inv r 0 s) R
    (fun r s => forN C (fun c (s : K × (Nat × Nat)) => if cmp (m r c) s.1 then (m r c, (r, c)) else s) s)
    (m 0 0, (0, 0)) ⟨show 0 < R by omega, show 0 < C by omega, rfl, fun _ => rfl, id, fun r' c' _ hh => by omega,
      fun r' c' _ hh => by
        have hh : r' < 0 ∨ (r' = 0 ∧ c' < 0) := hh
        omega, Or.inl rfl⟩ (by
      intro r t hr ht
      have := forN_inv (fun c s => Inv r c s) C
        (fun c (s : K × (Nat × Nat)) => if cmp (m r c) s.1 then (m r c, (r, c)) else s) t ht (by
          rintro c s hc ⟨h1, h2, h3, h4, h5, h6, h7, h8⟩
          by_cases hcm : cmp (m r c) s.1 = true
          · rw [if_pos hcm]
            obtain ⟨na, nb⟩ := h.num _ _ hcm
            have hlt : ∀ r' c', c' < C → (r' < r ∨ (r' = r ∧ c' < c)) → ¬ N (m r' c') → cmp (m r c) (m r' c') = true :=
              fun r' c' hc' hh hN => h.trans _ _ _ hcm hN (h6 r' c' hc' hh hN)
            refine ⟨hr, hc, rfl, fun hN => ?_, fun _ => na, fun r' c' hc' hh hN hcc => ?_, hlt,
              Or.inr (Or.inr ⟨rfl, by dsimp only; omega⟩)⟩
            · refine absurd ?_ nb
              rw [h3, h4 hN]; exact hN
            · by_cases e : r' = r ∧ c' = c
              · rw [e.1, e.2] at hcc
                exact h.asymm _ _ hcc hcc
              · exact h.asymm _ _ (hlt r' c' hc' (by omega) hN) hcc
          · rw [if_neg hcm]
            refine ⟨h1, h2, h3, h4, h5, fun r' c' hc' hh hN => ?_, h7, ?_⟩
            · by_cases e : r' = r ∧ c' = c
              · rw [e.1, e.2]; exact hcm
              · exact h6 r' c' hc' (by omega) hN
            · rcases h8 with h8 | h8 | h8
              · exact Or.inl h8
              · exact Or.inr (Or.inl h8)
              · exact Or.inr (Or.inr ⟨h8.1, by omega⟩))
      obtain ⟨h1, h2, h3, h4, h5, h6, h7, h8⟩ := this
      refine ⟨h1, h2, h3, h4, h5, ?_, h7, ?_⟩
      · intro r' c' hc' hh hN
        exact h6 r' c' hc' (by omega) hN
      · rcases h8 with h8 | h8 | h8
        · exact Or.inl h8
        · exact Or.inr (Or.inl (by omega))
        · exact Or.inr (Or.inl (by omega)))
  obtain ⟨h1, h2, h3, h4, h5, h6, h7, h8⟩ := key
  exact ⟨h1, h2, h3, h4, h5, fun r' c' hr hc => h6 r' c' hc (Or.inl hr), h7⟩

end generic

variable {G : Grid}

theorem key_none {a : XF G} : XF.key a = none ↔ a = .nan := by cases a <;> simp [XF.key]
theorem key_some {a : XF G} (h : a ≠ .nan) : ∃ x, XF.key a = some x := Option.ne_none_iff_exists'.1 (fun e => h (key_none.1 e))
theorem xlt_iff (a b : XF G) : a < b ↔ ∃ x y, XF.key a = some x ∧ XF.key b = some y ∧ x < y := Iff.rfl
theorem xle_iff (a b : XF G) : a ≤ b ↔ ∃ x y, XF.key a = some x ∧ XF.key b = some y ∧ x ≤ y := Iff.rfl
theorem xle_of_not_lt {a b : XF G} (ha : a ≠ .nan) (hb : b ≠ .nan) (h : ¬ b < a) : a ≤ b := by
  obtain ⟨x, hx⟩ := key_some ha
  obtain ⟨y, hy⟩ := key_some hb
  exact ⟨x, y, hx, hy, not_lt.1 fun hl => h ⟨y, x, hy, hx, hl⟩⟩

theorem cmp_less : Cmp (less : XF G → XF G → Bool) (fun a => a = .nan) where
  num := by
    intro a b h
    obtain ⟨x, y, hx, hy, _⟩ := of_decide_eq_true h
    have hx : XF.key a = some x := hx
    have hy : XF.key b = some y := hy
    exact ⟨fun e => (by rw [key_none.2 e] at hx; cases hx), fun e => (by rw [key_none.2 e] at hy; cases hy)⟩
  trans := by
    intro a b c h hc hn
    obtain ⟨x, y, hx, hy, hl⟩ := of_decide_eq_true h
    obtain ⟨z, hz⟩ := key_some hc
    refine decide_eq_true ⟨x, z, hx, hz, lt_of_lt_of_le hl (not_lt.1 fun hl' => hn (decide_eq_true ⟨z, y, hz, hy, hl'⟩))⟩
  asymm := by
    intro a b h h'
    obtain ⟨x, y, hx, hy, hl⟩ := of_decide_eq_true h
    obtain ⟨x', y', hx', hy', hl'⟩ := of_decide_eq_true h'
    rw [hx] at hy'; rw [hy] at hx'
    cases hx'; cases hy'
    exact lt_asymm hl hl'

theorem cmp_greater : Cmp (greater : XF G → XF G → Bool) (fun a => a = .nan) where
  num := fun a b h => (cmp_less.num b a h).symm
  trans := by
    intro a b c h hc hn
    obtain ⟨y, x, hy, hx, hl⟩ := of_decide_eq_true h
    obtain ⟨z, hz⟩ := key_some hc
    refine decide_eq_true ⟨z, x, hz, hx, lt_of_le_of_lt (not_lt.1 fun hl' => hn (decide_eq_true ⟨y, z, hy, hz, hl'⟩)) hl⟩
  asymm := fun a b h h' => cmp_less.asymm b a h h'

theorem loop_min (n : Nat) (hn : 1 ≤ n) (v : Vec (XF G)) :
    let s := forRange 1 n (fun ii (s : XF G × Nat) => if less (v ii) s.1 then (v ii, ii) else s) (v 0, 0)
    FirstMinN n v s.1 s.2 := by
  obtain ⟨h1, h2, h3, h4, h5, h6⟩ := loopN cmp_less n hn v
  exact ⟨h1, h2, h3, h4, fun h0 j hj hN => xle_of_not_lt (h4 h0) hN fun hl => h5 j hj hN (decide_eq_true hl),
    fun j hj hN => of_decide_eq_true (h6 j hj hN)⟩
theorem loop_max (n : Nat) (hn : 1 ≤ n) (v : Vec (XF G)) :
    let s := forRange 1 n (fun ii (s : XF G × Nat) => if greater (v ii) s.1 then (v ii, ii) else s) (v 0, 0)
    FirstMaxN n v s.1 s.2 := by
  obtain ⟨h1, h2, h3, h4, h5, h6⟩ := loopN cmp_greater n hn v
  exact ⟨h1, h2, h3, h4, fun h0 j hj hN => xle_of_not_lt hN (h4 h0) fun hl => h5 j hj hN (decide_eq_true hl),
    fun j hj hN => of_decide_eq_true (h6 j hj hN)⟩

/-- **C86** `min_element(v)`, `max_element(v)`, `min_value(v)`, `max_value(v)` -/
theorem c86_vector (n : Nat) (hn : 1 ≤ n) (v : Vec (XF G)) :
    FirstMinN n v (accElemV less n v).1 (accElemV less n v).2 ∧ FirstMaxN n v (accElemV greater n v).1 (accElemV greater n v).2 ∧
    accV less n v = (accElemV less n v).1 ∧ accV greater n v = (accElemV greater n v).1 := by
  have h0 : ¬ n = 0 := by omega
  have e : ∀ cmp : XF G → XF G → Bool, accV cmp n v = (accElemV cmp n v).1 := by
    intro cmp; unfold accV accElemV; rw [if_neg h0, if_neg h0, loop_fst]
  refine ⟨?_, ?_, e _, e _⟩
  · unfold accElemV; rw [if_neg h0]; exact loop_min n hn v
  · unfold accElemV; rw [if_neg h0]; exact loop_max n hn v

/-- **C86** `min_element(m)`, `max_element(m)`, `min_value(m)`, `max_value(m)` -/
theorem c86_matrix (R C : Nat) (hR : 1 ≤ R) (hC : 1 ≤ C) (m : Mat (XF G)) :
    FirstMinMN R C m (accElemM less R C m).1 (accElemM less R C m).2.1 (accElemM less R C m).2.2 ∧
    FirstMaxMN R C m (accElemM greater R C m).1 (accElemM greater R C m).2.1 (accElemM greater R C m).2.2 ∧
    accM less R C m = (accElemM less R C m).1 ∧ accM greater R C m = (accElemM greater R C m).1 := by
  have h0 : ¬ (R = 0 ∨ C = 0) := by omega
  have e : ∀ cmp : XF G → XF G → Bool, accM cmp R C m = (accElemM cmp R C m).1 := by
    intro cmp; unfold accM accElemM; rw [if_neg h0, if_neg h0, loopM_fst]
  refine ⟨?_, ?_, e _, e _⟩
  · unfold accElemM; rw [if_neg h0]
    obtain ⟨h1, h2, h3, h4, h5, h6, h7⟩ := loopMN cmp_less R C hR hC m
    exact ⟨h1, h2, h3, fun hN => ⟨congrArg Prod.fst (h4 hN), congrArg Prod.snd (h4 hN)⟩, h5,
      fun h0 r' c' hr hc hN => xle_of_not_lt (h5 h0) hN fun hl => h6 r' c' hr hc hN (decide_eq_true hl),
      fun r' c' hc hh hN => of_decide_eq_true (h7 r' c' hc hh hN)⟩
  · unfold accElemM; rw [if_neg h0]
    obtain ⟨h1, h2, h3, h4, h5, h6, h7⟩ := loopMN cmp_greater R C hR hC m
    exact ⟨h1, h2, h3, fun hN => ⟨congrArg Prod.fst (h4 hN), congrArg Prod.snd (h4 hN)⟩, h5,
      fun h0 r' c' hr hc hN => xle_of_not_lt hN (h5 h0) fun hl => h6 r' c' hr hc hN (decide_eq_true hl),
      fun r' c' hc hh hN => of_decide_eq_true (h7 r' c' hc hh hN)⟩

/-- conversion of an `int` index to the element type (`(*bestIndices)[nRow] = nCol`, helpers.h:647, 652, 715, 720) -/
noncomputable def idx (G : Grid) (k : Nat) : XF G := XF.ofReal G k

/-- **C86** `min/max_element_horizontal(m)` and `min/max_value_horizontal(m)`: for every row what the vector query returns for it,
the index converted to the element type -/
theorem c86_horizontal_partial (R C : Nat) (hC : 1 ≤ C) (m : Mat (XF G)) (u w : Vec (XF G)) :
    (∃ s, accElemH less (idx G) R C m u w = .ok s ∧ accH less R C m u = .ok s.1 ∧
      ∀ r, r < R → ∃ c, FirstMinN C (m r) (s.1 r) c ∧ s.2 r = idx G c) ∧
    (∃ s, accElemH greater (idx G) R C m u w = .ok s ∧ accH greater R C m u = .ok s.1 ∧
      ∀ r, r < R → ∃ c, FirstMaxN C (m r) (s.1 r) c ∧ s.2 r = idx G c) := by
  have h0 : ¬ (0 < R ∧ C = 0) := by omega
  refine ⟨⟨_, if_neg h0, ?_, ?_⟩, ⟨_, if_neg h0, ?_, ?_⟩⟩
  · unfold accH; rw [if_neg h0, perRow_fst less R C m (idx G) u w]
  · intro r hr
    obtain ⟨a, b⟩ := perRow less R C hC m (idx G) u w r hr
    exact ⟨_, by rw [a]; exact loop_min C hC (m r), b⟩
  · unfold accH; rw [if_neg h0, perRow_fst greater R C m (idx G) u w]
  · intro r hr
    obtain ⟨a, b⟩ := perRow greater R C hC m (idx G) u w r hr
    exact ⟨_, by rw [a]; exact loop_max C hC (m r), b⟩

/-- **C86** `min/max_element_vertical(m)` and `min/max_value_vertical(m)` -/
theorem c86_vertical_partial (R C : Nat) (hR : 1 ≤ R) (m : Mat (XF G)) (u w : Vec (XF G)) :
    (∃ s, accElemVert less (idx G) R C m u w = .ok s ∧ accVert less R C m u = .ok s.1 ∧
      ∀ c, c < C → ∃ r, FirstMinN R (fun i => m i c) (s.1 c) r ∧ s.2 c = idx G r) ∧
    (∃ s, accElemVert greater (idx G) R C m u w = .ok s ∧ accVert greater R C m u = .ok s.1 ∧
      ∀ c, c < C → ∃ r, FirstMaxN R (fun i => m i c) (s.1 c) r ∧ s.2 c = idx G r) := by
  have h0 : ¬ (0 < C ∧ R = 0) := by omega
  refine ⟨⟨_, if_neg h0, ?_, ?_⟩, ⟨_, if_neg h0, ?_, ?_⟩⟩
  · unfold accVert; rw [if_neg h0, perRow_fst less C R (fun c r => m r c) (idx G) u w]
  · intro c hc
    obtain ⟨a, b⟩ := perRow less C R hR (fun c r => m r c) (idx G) u w c hc
    exact ⟨_, by rw [a]; exact loop_min R hR (fun i => m i c), b⟩
  · unfold accVert; rw [if_neg h0, perRow_fst greater C R (fun c r => m r c) (idx G) u w]
  · intro c hc
    obtain ⟨a, b⟩ := perRow greater C R hR (fun c r => m r c) (idx G) u w c hc
    exact ⟨_, by rw [a]; exact loop_max R hR (fun i => m i c), b⟩

section index
variable {p : ℕ} {emin emax : ℤ} {hp : 2 ≤ p} {h1 : emin ≤ -2} {h2 : emin + p - 1 ≤ emax} {h3 : 1 ≤ emax}

theorem rnd_int (hp : 2 ≤ p) (h1 : emin ≤ -2) (k : ℤ) : rndIEEE p emin (k : ℝ) = rndNearest p (k : ℝ) := by
  have e : ((k * 2 ^ (-emin).toNat : ℤ) : ℝ) * (2:ℝ) ^ emin = k := by
    push_cast
    rw [mul_assoc, ← zpow_natCast, Int.toNat_of_nonneg (by omega), ← zpow_add₀ (by norm_num), neg_add_cancel, zpow_zero, mul_one]
  have := Special.agree_multiple (p := p) (emin := emin) (by omega) (k * 2 ^ (-emin).toNat)
  rwa [e] at this

/-- **C86** an index of at most `2^p` is stored exactly (`p = 24` for `float`, `53` for `double`) -/
theorem c86_index_exact (hbig : (p : ℤ) ≤ emax) (k : ℕ) (hk : k ≤ 2 ^ p) :
    ∃ h, idx (Grid.ieee p emin emax hp h1 h2 h3) k = .fin k h := by
  set G := Grid.ieee p emin emax hp h1 h2 h3
  have hr : G.rnd (k : ℝ) = k := by
    show rndIEEE p emin (k : ℝ) = k
    have := rnd_int hp h1 (k : ℤ)
    have h' := rndNearest_int p (by omega) (k : ℤ) (by rw [abs_of_nonneg (by positivity)]; exact_mod_cast hk)
    push_cast at this h'
    rw [this, h']
  have hb : (k : ℝ) ≤ G.big := by
    show (k:ℝ) ≤ (2 ^ p - 1) * (2:ℝ) ^ (emax + 1 - p)
    have e1 : (2:ℝ) ≤ (2:ℝ) ^ (emax + 1 - p) := by
      calc (2:ℝ) = (2:ℝ) ^ (1:ℤ) := by norm_num
        _ ≤ _ := zpow_le_zpow_right₀ (by norm_num) (by omega)
    have e2 : (k:ℝ) ≤ 2 ^ p := by exact_mod_cast hk
    have e3 : (4:ℝ) ≤ 2 ^ p := by
      calc (4:ℝ) = 2 ^ 2 := by norm_num
        _ ≤ _ := pow_le_pow_right₀ (by norm_num) hp
    nlinarith
  have hk0 : (0:ℝ) ≤ k := Nat.cast_nonneg k
  have hc : G.rnd k ≤ G.big ∧ -G.big ≤ G.rnd k := by rw [hr]; exact ⟨hb, by linarith⟩
  refine ⟨⟨hr, by rw [abs_of_nonneg hk0]; exact hb⟩, ?_⟩
  unfold idx XF.ofReal
  rw [dif_pos hc]
  congr 1

/-- the number stored for the index `2^p + 1` is not that index -/
theorem index_lost (hp : 2 ≤ p) (h1 : emin ≤ -2) : rndIEEE p emin (((2 ^ p + 1 : ℕ) : ℝ)) ≠ ((2 ^ p + 1 : ℕ) : ℝ) := by
  have e : (((2 ^ p + 1 : ℕ) : ℝ)) = (((2 ^ p + 1 : ℤ)) : ℝ) := by push_cast; ring
  rw [e, rnd_int hp h1]
  have hu : ulp p (((2 ^ p + 1 : ℤ)) : ℝ) = 2 := by
    have := ulp_of_binade p (((2 ^ p + 1 : ℤ)) : ℝ) p (by push_cast; rw [zpow_natCast]; linarith) (by
      push_cast
      rw [zpow_add_one₀ (by norm_num), zpow_natCast]
      have : (4:ℝ) ≤ 2 ^ p := by
        calc (4:ℝ) = 2 ^ 2 := by norm_num
          _ ≤ _ := pow_le_pow_right₀ (by norm_num) hp
      linarith)
    rw [this]; simp
  unfold rndNearest
  rw [hu]
  intro h
  have h' : rne (((2 ^ p + 1 : ℤ) : ℝ) / 2) * 2 = 2 ^ p + 1 := by exact_mod_cast h
  have : (2:ℤ) ∣ 2 ^ p := dvd_pow_self 2 (by omega)
  omega

/-- **C86** the full claim about indices is false: in a row of `2^p + 2` elements whose smallest is in column `2^p + 1`,
`min_element_horizontal` reports a number that is not that column (for `float`: `2^24 + 1`) -/
theorem c86_index_wrong (u w : Vec (XF (Grid.ieee p emin emax hp h1 h2 h3))) :
    let m : Mat (XF (Grid.ieee p emin emax hp h1 h2 h3)) := fun _ c => if c = 2 ^ p + 1 then 0 else 1
    ∃ s, accElemH less (idx _) 1 (2 ^ p + 2) m u w = .ok s ∧ s.1 0 = m 0 (2 ^ p + 1) ∧
      (∀ c, c < 2 ^ p + 2 → c ≠ 2 ^ p + 1 → m 0 (2 ^ p + 1) < m 0 c) ∧
      ∀ x h, s.2 0 = .fin x h → x ≠ ((2 ^ p + 1 : ℕ) : ℝ) := by
  intro m
  have h01 : (0 : XF (Grid.ieee p emin emax hp h1 h2 h3)) < 1 := ⟨((0:ℝ) : EReal), ((1:ℝ) : EReal), rfl, rfl, by exact_mod_cast one_pos⟩
  have n0 : (0 : XF (Grid.ieee p emin emax hp h1 h2 h3)) ≠ .nan := fun e => by cases e
  have n1 : (1 : XF (Grid.ieee p emin emax hp h1 h2 h3)) ≠ .nan := fun e => by cases e
  have hm0 : ∀ c, m 0 c ≠ .nan := by
    intro c; show (if c = 2 ^ p + 1 then 0 else 1) ≠ _; split_ifs
    · exact n0
    · exact n1
  have hmlt : ∀ c, c ≠ 2 ^ p + 1 → m 0 (2 ^ p + 1) < m 0 c := by
    intro c hc
    show (if (2:ℕ) ^ p + 1 = 2 ^ p + 1 then _ else _) < (if c = 2 ^ p + 1 then _ else _)
    rw [if_pos rfl, if_neg hc]; exact h01
  obtain ⟨⟨s, e1, _, hs⟩, _⟩ := c86_horizontal_partial 1 (2 ^ p + 2) (Nat.le_add_left 1 (2 ^ p + 1)) m u w
  obtain ⟨c, hc, ec⟩ := hs 0 Nat.one_pos
  have hcc : c = 2 ^ p + 1 := by
    by_contra hne
    have ha := hc.le (hm0 0) (2 ^ p + 1) (Nat.lt_succ_self _) (hm0 _)
    rw [hc.val] at ha
    obtain ⟨x, y, hx, hy, hle⟩ := ha
    obtain ⟨y', x', hy', hx', hlt⟩ := hmlt c hne
    have : x = x' := Option.some.inj (hx.symm.trans hx')
    have : y = y' := Option.some.inj (hy.symm.trans hy')
    subst_vars
    exact absurd hlt (not_lt.2 hle)
  subst hcc
  refine ⟨s, e1, hc.val, fun c _ => hmlt c, fun x h hx => ?_⟩
  rw [ec] at hx
  unfold idx XF.ofReal at hx
  split_ifs at hx with h4 h5
  · cases hx
    exact index_lost hp h1

end index

/-- the hypotheses are met, and both kinds of NaN positions occur: `(NaN, 1)` gives NaN, `(1, NaN)` gives 1 -/
example : accV less 2 (fun i => if i = 0 then XF.nan else (1 : XF Grid.double)) = .nan ∧
    accV less 2 (fun i => if i = 0 then (1 : XF Grid.double) else XF.nan) = 1 := by
  have n1 : (1 : XF Grid.double) ≠ .nan := fun e => by cases e
  constructor
  · obtain ⟨h, -, e, -⟩ := c86_vector 2 (by omega) (fun i => if i = 0 then XF.nan else (1 : XF Grid.double))
    rw [e, h.val, h.nan (if_pos rfl)]; rfl
  · obtain ⟨h, -, e, -⟩ := c86_vector 2 (by omega) (fun i => if i = 0 then (1 : XF Grid.double) else XF.nan)
    have hn := h.num (by rw [if_pos rfl]; exact n1)
    rw [e]
    rw [h.val] at hn ⊢
    by_cases h0 : (accElemV less 2 (fun i => if i = 0 then (1 : XF Grid.double) else XF.nan)).2 = 0
    · rw [if_pos h0]
    · rw [if_neg h0] at hn; exact absurd rfl hn

end TooN.Helpers
