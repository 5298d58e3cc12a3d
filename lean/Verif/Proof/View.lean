import Verif.Spec.View
namespace TooN.View

/-- A concrete view implements a logical one (for a given owner). -/
def Refines (o : Owner) : AnyView → LView → Prop
  | .v x, .v y => x.len = y.len ∧ ∀ k, k < x.len → x.addr k = o.cell (y.elt k)
  | .m x, .m y => x.rows = y.rows ∧ x.cols = y.cols ∧
      ∀ r c, r < x.rows → c < x.cols → x.addr r c = o.cell (y.elt r c)
  | _, _ => False

/-- Logical views select existing elements, each at most once. -/
def Proper (o : Owner) (y : LView) : Prop :=
  (∀ ix p, y.elt? ix = some p → o.HasElt p) ∧
  (∀ ix ix' p, y.elt? ix = some p → y.elt? ix' = some p → ix = ix')

theorem refines_owner (o : Owner) : Refines o o.view o.lview := by
  cases o <;> simp [Owner.view, Owner.lview, Refines, VView.addr, MView.addr, Owner.cell]
  intros; omega

theorem proper_owner (o : Owner) : Proper o o.lview := by
  cases o with
  | vec n =>
    constructor
    · rintro (k | ⟨r, c⟩) p <;> simp only [Owner.lview, LView.elt?] <;> intro h
      · split at h
        · cases h; exact ⟨rfl, by assumption⟩
        · cases h
      · cases h
    · rintro (k | ⟨r, c⟩) (k' | ⟨r', c'⟩) p <;> simp only [Owner.lview, LView.elt?] <;> intro h h'
      · split at h <;> split at h' <;> cases h <;> cases h'
        rfl
      · cases h'
      · cases h
      · cases h
  | rowMajor r c =>
    constructor
    · rintro (k | ⟨i, j⟩) p <;> simp only [Owner.lview, LView.elt?] <;> intro h
      · cases h
      · split at h
        · cases h; assumption
        · cases h
    · rintro (k | ⟨r, c⟩) (k' | ⟨r', c'⟩) p <;> simp only [Owner.lview, LView.elt?] <;> intro h h'
      · cases h
      · cases h
      · cases h'
      · split at h <;> split at h' <;> cases h <;> cases h'
        rfl
  | colMajor r c =>
    constructor
    · rintro (k | ⟨i, j⟩) p <;> simp only [Owner.lview, LView.elt?] <;> intro h
      · cases h
      · split at h
        · cases h; assumption
        · cases h
    · rintro (k | ⟨r, c⟩) (k' | ⟨r', c'⟩) p <;> simp only [Owner.lview, LView.elt?] <;> intro h h'
      · cases h
      · cases h
      · cases h'
      · split at h <;> split at h' <;> cases h <;> cases h'
        rfl

theorem sliceOk_iff (n s l : Int) : sliceOk n s l = true ↔ 0 ≤ s ∧ 0 ≤ l ∧ s + l ≤ n := by
  simp [sliceOk]; omega

theorem apply_refines (o : Owner) (x : AnyView) (y : LView) (h : Refines o x y) (op : ViewOp) :
    (∃ x' y', x.apply op = .ok x' ∧ y.apply op = some y' ∧ Refines o x' y') ∨
    ((∀ x', x.apply op ≠ .ok x') ∧ y.apply op = none) := by
  rcases x with x | x <;> rcases y with y | y <;> simp only [Refines] at h
  · obtain ⟨hl, ha⟩ := h
    cases op <;> simp only [AnyView.apply, LView.apply, VView.slice]
    case slice s l =>
      by_cases hs : sliceOk x.len s l = true
      · left
        rw [if_pos hs]
        have hs' := (sliceOk_iff _ _ _).1 hs
        rw [if_pos (by rw [← hl]; exact hs')]
        refine ⟨_, _, rfl, rfl, ?_⟩
        simp only [Refines, true_and]
        intro k hk
        have := ha (s.toNat + k) (by omega)
        rw [← this]
        simp only [VView.addr, Nat.add_mul, Nat.mul_comm x.stride]
        omega
      · right
        have hs' : ¬ (0 ≤ s ∧ 0 ≤ l ∧ s + l ≤ (x.len : Int)) := fun h => hs ((sliceOk_iff _ _ _).2 h)
        rw [if_neg hs, if_neg (by rw [← hl]; exact hs')]
        simp
    all_goals simp
    · simp [Refines, VView.asRow, MView.addr, hl]
      intro r c hr hc
      subst hr
      rw [← ha c (by omega)]; simp [VView.addr]
    · simp [Refines, VView.asCol, MView.addr, hl]
      intro r hr
      rw [← ha r (by omega)]; simp [VView.addr]
    · simp [Refines, VView.asSlice, VView.addr, hl]
      intro k hk
      rw [← ha k (by omega)]; simp [VView.addr]
  · obtain ⟨hr, hc, ha⟩ := h
    cases op <;> simp only [AnyView.apply, LView.apply, MView.row, MView.slice]
    case row r =>
      by_cases h0 : 0 ≤ r ∧ r < x.rows
      · left
        rw [if_pos h0, if_pos (by rw [← hr]; exact h0)]
        refine ⟨_, _, rfl, rfl, ?_⟩
        simp only [Refines, hc, true_and]
        intro k hk
        rw [← ha r.toNat k (by omega) (by omega)]
        simp only [VView.addr, MView.addr, Nat.mul_comm x.rs]; omega
      · right
        rw [if_neg h0, if_neg (by rw [← hr]; exact h0)]
        simp
    case mslice a b c d =>
      by_cases h1 : sliceOk x.rows a c = true
      · by_cases h2 : sliceOk x.cols b d = true
        · left
          have h1' := (sliceOk_iff _ _ _).1 h1
          have h2' := (sliceOk_iff _ _ _).1 h2
          rw [if_pos h1, if_pos h2, if_pos (by rw [← hr, ← hc]; exact ⟨h1', h2'⟩)]
          refine ⟨_, _, rfl, rfl, ?_⟩
          simp only [Refines, true_and]
          intro i j hi hj
          rw [← ha (a.toNat + i) (b.toNat + j) (by omega) (by omega)]
          simp only [MView.addr, Nat.add_mul, Nat.mul_comm x.rs, Nat.mul_comm x.cs]; omega
        · right
          have h2' : ¬ (0 ≤ b ∧ 0 ≤ d ∧ b + d ≤ (x.cols : Int)) := fun h => h2 ((sliceOk_iff _ _ _).2 h)
          rw [if_pos h1, if_neg h2, if_neg (by rw [← hr, ← hc]; exact fun h => h2' h.2)]
          simp
      · right
        have h1' : ¬ (0 ≤ a ∧ 0 ≤ c ∧ a + c ≤ (x.rows : Int)) := fun h => h1 ((sliceOk_iff _ _ _).2 h)
        rw [if_neg h1, if_neg (by rw [← hr]; exact fun h => h1' h.1)]
        simp
    all_goals simp
    · simp [Refines, MView.T, hr, hc]
      intro r c h1 h2
      rw [← ha c r (by omega) (by omega)]; simp [MView.addr]; omega
    · simp [Refines, MView.diag, hr, hc, Nat.min_comm]
      intro k h1
      rw [← ha k k (by omega) (by omega)]; simp [MView.addr, VView.addr, Nat.mul_add]

theorem apply_proper (o : Owner) (y y' : LView) (h : Proper o y) (op : ViewOp)
    (hy : y.apply op = some y') : Proper o y' := by
  obtain ⟨h1, h2⟩ := h
  -- every index of the new view comes from an index of the old one, injectively
  suffices hs : ∃ f : Idx → Idx, (∀ ix p, y'.elt? ix = some p → y.elt? (f ix) = some p) ∧
      (∀ ix ix' p q, y'.elt? ix = some p → y'.elt? ix' = some q → f ix = f ix' → ix = ix') by
    obtain ⟨f, hf, hinj⟩ := hs
    exact ⟨fun ix p hp => h1 _ _ (hf _ _ hp),
      fun ix ix' p hp hp' => hinj _ _ _ _ hp hp' (h2 _ _ _ (hf _ _ hp) (hf _ _ hp'))⟩
  clear h1 h2
  rcases y with y | y
  · cases op <;> simp only [LView.apply] at hy
    case slice s l =>
      split at hy
      · rename_i hs
        simp only [Option.some.injEq] at hy; subst hy
        refine ⟨fun | .i k => .i (s.toNat + k) | x => x, ?_, ?_⟩
        · rintro (k | ⟨r, c⟩) p <;> simp [LView.elt?]
          intro hk hp; exact ⟨by omega, hp⟩
        · rintro (k | ⟨r, c⟩) (k' | ⟨r', c'⟩) p q <;> simp [LView.elt?]
      · cases hy
    case asRow =>
      simp only [Option.some.injEq] at hy; subst hy
      refine ⟨fun | .rc _ c => .i c | x => x, ?_, ?_⟩
      · rintro (k | ⟨r, c⟩) p <;> simp [LView.elt?]
        intro _ hk hp; exact ⟨by omega, hp⟩
      · rintro (k | ⟨r, c⟩) (k' | ⟨r', c'⟩) p q <;> simp [LView.elt?]
        intros; omega
    case asCol =>
      simp only [Option.some.injEq] at hy; subst hy
      refine ⟨fun | .rc r _ => .i r | x => x, ?_, ?_⟩
      · rintro (k | ⟨r, c⟩) p <;> simp [LView.elt?]
        intro hk _ hp; exact ⟨by omega, hp⟩
      · rintro (k | ⟨r, c⟩) (k' | ⟨r', c'⟩) p q <;> simp [LView.elt?]
        intros; omega
    case asSlice =>
      simp only [Option.some.injEq] at hy; subst hy
      exact ⟨id, fun _ _ h => h, fun _ _ _ _ _ _ h => h⟩
    all_goals cases hy
  · cases op <;> simp only [LView.apply] at hy
    case row r =>
      split at hy
      · rename_i hs
        simp only [Option.some.injEq] at hy; subst hy
        refine ⟨fun | .i c => .rc r.toNat c | x => x, ?_, ?_⟩
        · rintro (k | ⟨r', c⟩) p <;> simp [LView.elt?]
          intro hk hp; exact ⟨⟨by omega, hk⟩, hp⟩
        · rintro (k | ⟨r, c⟩) (k' | ⟨r', c'⟩) p q <;> simp [LView.elt?]
      · cases hy
    case mslice a b c d =>
      split at hy
      · rename_i hs
        simp only [Option.some.injEq] at hy; subst hy
        refine ⟨fun | .rc r k => .rc (a.toNat + r) (b.toNat + k) | x => x, ?_, ?_⟩
        · rintro (k | ⟨r, c⟩) p <;> simp [LView.elt?]
          intro hk hk' hp; exact ⟨by omega, hp⟩
        · rintro (k | ⟨r, c⟩) (k' | ⟨r', c'⟩) p q <;> simp [LView.elt?]
      · cases hy
    case T =>
      simp only [Option.some.injEq] at hy; subst hy
      refine ⟨fun | .rc r k => .rc k r | x => x, ?_, ?_⟩
      · rintro (k | ⟨r, c⟩) p <;> simp [LView.elt?]
        intro hk hk' hp; exact ⟨by omega, hp⟩
      · rintro (k | ⟨r, c⟩) (k' | ⟨r', c'⟩) p q <;> simp [LView.elt?]
        intros; omega
    case diag =>
      simp only [Option.some.injEq] at hy; subst hy
      refine ⟨fun | .i k => .rc k k | x => x, ?_, ?_⟩
      · rintro (k | ⟨r, c⟩) p <;> simp [LView.elt?]
        intro hk hp; exact ⟨by omega, hp⟩
      · rintro (k | ⟨r, c⟩) (k' | ⟨r', c'⟩) p q <;> simp [LView.elt?]
    all_goals cases hy

theorem chain_refines (o : Owner) (ops : List ViewOp) (x : AnyView) (y : LView)
    (h : Refines o x y) (hp : Proper o y) :
    (∃ x' y', x.chain ops = .ok x' ∧ y.chain ops = some y' ∧ Refines o x' y' ∧ Proper o y') ∨
    ((∀ x', x.chain ops ≠ .ok x') ∧ y.chain ops = none) := by
  induction ops generalizing x y with
  | nil => left; exact ⟨x, y, rfl, rfl, h, hp⟩
  | cons op ops ih =>
    rcases apply_refines o x y h op with ⟨x', y', hx, hy, hr⟩ | ⟨hx, hy⟩
    · have hp' := apply_proper o y y' hp op hy
      have := ih x' y' hr hp'
      simpa [AnyView.chain, LView.chain, hx, hy] using this
    · right
      refine ⟨?_, by simp [LView.chain, hy]⟩
      intro x'
      simp only [AnyView.chain]
      cases hq : x.apply op with
      | ok z => exact absurd hq (hx z)
      | abort => simp
      | ub => simp

theorem refines_addr (o : Owner) (x : AnyView) (y : LView) (h : Refines o x y) (ix : Idx) :
    x.addr? ix = (y.elt? ix).map o.cell := by
  rcases x with x | x <;> rcases y with y | y <;> rcases ix with k | ⟨r, c⟩ <;>
    simp only [Refines] at h <;> simp only [AnyView.addr?, LView.elt?, Option.map_none]
  · rw [h.1]
    by_cases hk : k < y.len
    · simp [hk, h.2 k (by rw [h.1]; exact hk)]
    · simp [hk]
  · obtain ⟨h1, h2, h3⟩ := h
    rw [h1, h2]
    by_cases hk : r < y.rows ∧ c < y.cols
    · simp [hk, h3 r c (by omega) (by omega)]
    · simp [hk]

theorem cell_lt (o : Owner) (p : Nat × Nat) (h : o.HasElt p) : o.cell p < o.cells := by
  obtain ⟨i, j⟩ := p
  cases o with
  | vec n => exact h.2
  | rowMajor r c =>
    obtain ⟨h1, h2⟩ := h
    simp only [Owner.cell, Owner.cells]
    calc i * c + j < i * c + c := by omega
      _ = (i+1) * c := by rw [Nat.add_mul]; omega
      _ ≤ r * c := Nat.mul_le_mul_right _ h1
  | colMajor r c =>
    obtain ⟨h1, h2⟩ := h
    simp only [Owner.cell, Owner.cells]
    calc j * r + i < j * r + r := by simp only at h1; omega
      _ = (j+1) * r := by rw [Nat.add_mul]; omega
      _ ≤ c * r := Nat.mul_le_mul_right _ h2
      _ = r * c := Nat.mul_comm _ _

theorem mul_add_inj {n a b a' b' : Nat} (hb : b < n) (hb' : b' < n)
    (h : a * n + b = a' * n + b') : a = a' ∧ b = b' := by
  have h1 : (a * n + b) / n = a := by
    rw [Nat.mul_comm, Nat.mul_add_div (by omega), Nat.div_eq_of_lt hb, Nat.add_zero]
  have h2 : (a' * n + b') / n = a' := by
    rw [Nat.mul_comm, Nat.mul_add_div (by omega), Nat.div_eq_of_lt hb', Nat.add_zero]
  have ha : a = a' := by rw [← h1, ← h2, h]
  subst ha
  exact ⟨rfl, by omega⟩

theorem cell_inj (o : Owner) (p q : Nat × Nat) (hp : o.HasElt p) (hq : o.HasElt q)
    (h : o.cell p = o.cell q) : p = q := by
  obtain ⟨i, j⟩ := p
  obtain ⟨i', j'⟩ := q
  cases o with
  | vec n =>
    simp only [Owner.HasElt, Owner.cell] at *
    simp [hp.1, hq.1, h]
  | rowMajor r c =>
    obtain ⟨a, b⟩ := mul_add_inj hp.2 hq.2 h
    simp_all
  | colMajor r c =>
    obtain ⟨a, b⟩ := mul_add_inj hp.1 hq.1 h
    simp_all

end TooN.View
