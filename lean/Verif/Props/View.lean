import Verif.Proof.View
/-!
# C01, C02, C03: views

`o.view.chain ops` is the view obtained from the owning object `o` by the chain of view calls
`ops`; `o.lview.chain ops` is its documented meaning (Spec/View.lean).
-/
namespace TooN.View

/-- **C01** A chain of view operations is accepted exactly when every step is a legal use, and the
resulting view has exactly the documented elements: index `ix` of the view is in range iff the
documented selection has that index, and the cell accessed is the one where the owner stores the
documented element. -/
theorem c01_views_address_right_element (o : Owner) (ops : List ViewOp) :
    ((∃ x, o.view.chain ops = .ok x) ↔ (∃ y, o.lview.chain ops = some y)) ∧
    ∀ x y, o.view.chain ops = .ok x → o.lview.chain ops = some y →
      ∀ ix, x.addr? ix = (y.elt? ix).map o.cell := by
  rcases chain_refines o ops _ _ (refines_owner o) (proper_owner o) with
    ⟨x, y, hx, hy, hr, -⟩ | ⟨hx, hy⟩
  · refine ⟨⟨fun _ => ⟨y, hy⟩, fun _ => ⟨x, hx⟩⟩, ?_⟩
    intro x' y' hx' hy' ix
    rw [hx] at hx'; rw [hy] at hy'
    cases hx'; cases hy'
    exact refines_addr o x y hr ix
  · refine ⟨⟨fun ⟨x, h⟩ => absurd h (hx x), fun ⟨y, h⟩ => by simp [hy] at h⟩, ?_⟩
    intro x' y' hx' _ ix
    exact absurd hx' (hx x')

/-- non-vacuity: a chain of five operations on a 4×5 column-major matrix. -/
example : (Owner.colMajor 4 5).view.chain [.mslice 1 1 3 4, .T, .row 2, .slice 1 2, .asCol] =
    .ok (.m ⟨14, 2, 1, 1, 1⟩) := by decide

/-- **C01** the single-step identities of the property, for every matrix view. -/
theorem c01_matrix_identities (m : MView) (r c : Nat) :
    (∀ v, m.row r = .ok v → v.addr c = m.addr r c) ∧
    m.T.addr c r = m.addr r c ∧ m.T.T = m ∧
    m.diag.addr r = m.addr r r ∧
    (∀ a b h w v, m.slice a b h w = .ok v → a.toNat ≤ r → b.toNat ≤ c →
      v.addr (r - a.toNat) (c - b.toNat) = m.addr r c) := by
  refine ⟨?_, ?_, rfl, ?_, ?_⟩
  · intro v h
    simp only [MView.row] at h
    split at h
    · cases h; simp [VView.addr, MView.addr, Nat.mul_comm]; omega
    · cases h
  · simp [MView.addr, MView.T]; omega
  · simp [VView.addr, MView.addr, MView.diag, Nat.mul_add]
  · intro a b h w v hv ha hb
    simp only [MView.slice] at hv
    split at hv
    · split at hv
      · cases hv
        obtain ⟨p, rfl⟩ := Nat.exists_eq_add_of_le ha
        obtain ⟨q, rfl⟩ := Nat.exists_eq_add_of_le hb
        simp only [MView.addr, Nat.add_sub_cancel_left, Nat.add_mul, Nat.mul_comm m.rs,
          Nat.mul_comm m.cs]
        omega
      · cases hv
    · cases hv

example : (MView.mk 3 4 5 5 1).slice 1 2 3 3 = .ok ⟨10, 3, 3, 5, 1⟩ := by decide

/-- **C01** slicing a slice is slicing once: `v.slice(a,n).slice(b,k)` is accepted exactly when
`b,k` fit, and then equals `v.slice(a+b,k)`. -/
theorem c01_slice_slice (v w : VView) (a n b k : Int) (h : v.slice a n = .ok w) :
    w.slice b k = if 0 ≤ b ∧ 0 ≤ k ∧ b + k ≤ n then v.slice (a + b) k else .abort := by
  simp only [VView.slice] at h ⊢
  split at h
  · rename_i hs
    cases h
    have hs' := (sliceOk_iff _ _ _).1 hs
    dsimp only
    by_cases hb : 0 ≤ b ∧ 0 ≤ k ∧ b + k ≤ n
    · rw [if_pos hb, if_pos ((sliceOk_iff _ _ _).2 (by omega)),
        if_pos ((sliceOk_iff _ _ _).2 (by omega))]
      have : (a + b).toNat = a.toNat + b.toNat := by omega
      simp [this, Nat.mul_add, Nat.add_assoc]
    · rw [if_neg hb, if_neg (fun hc => hb (by have := (sliceOk_iff _ _ _).1 hc; omega))]
  · cases h

example : (VView.mk 0 10 1).slice 2 5 = .ok ⟨2, 5, 1⟩ := by decide

/-- **C02** memory safety: every index position of every view reachable from an owner by accepted
operations is a cell of the owner's buffer. -/
theorem c02_in_bounds (o : Owner) (ops : List ViewOp) (x : AnyView)
    (h : o.view.chain ops = .ok x) (ix : Idx) (p : Nat) (hp : x.addr? ix = some p) :
    p < o.cells := by
  rcases chain_refines o ops _ _ (refines_owner o) (proper_owner o) with
    ⟨x', y, hx, hy, hr, hpr⟩ | ⟨hx, hy⟩
  · rw [hx] at h; cases h
    rw [refines_addr o x y hr ix] at hp
    cases he : y.elt? ix with
    | none => simp [he] at hp
    | some q =>
      simp [he] at hp
      exact hp ▸ cell_lt o q (hpr.1 _ _ he)
  · exact absurd h (hx x)

/-- **C02** no self-aliasing: two different index positions of a view are different cells. -/
theorem c02_no_self_alias (o : Owner) (ops : List ViewOp) (x : AnyView)
    (h : o.view.chain ops = .ok x) (ix ix' : Idx) (p : Nat)
    (hp : x.addr? ix = some p) (hp' : x.addr? ix' = some p) : ix = ix' := by
  rcases chain_refines o ops _ _ (refines_owner o) (proper_owner o) with
    ⟨x', y, hx, hy, hr, hpr⟩ | ⟨hx, hy⟩
  · rw [hx] at h; cases h
    rw [refines_addr o x y hr] at hp hp'
    cases he : y.elt? ix with
    | none => simp [he] at hp
    | some q =>
      cases he' : y.elt? ix' with
      | none => simp [he'] at hp'
      | some q' =>
        simp [he] at hp; simp [he'] at hp'
        have := cell_inj o q q' (hpr.1 _ _ he) (hpr.1 _ _ he') (hp.trans hp'.symm)
        subst this
        exact hpr.2 _ _ _ he he'
  · exact absurd h (hx x)

example : ∃ x, (Owner.rowMajor 3 4).view.chain [.T, .diag, .asRow] = .ok x ∧
    x.addr? (.rc 0 2) = some 10 := ⟨_, rfl, by decide⟩

/-- **C03** write-through and frame: after writing `a` through index `ix` of one view, any view of
the same owner reads `a` at exactly the index positions that denote the same owner element, and its
old value at all others. -/
theorem c03_write_through {K : Type _} (o : Owner) (ops ops' : List ViewOp) (x x' : AnyView)
    (y y' : LView)
    (hx : o.view.chain ops = .ok x) (hy : o.lview.chain ops = some y)
    (hx' : o.view.chain ops' = .ok x') (hy' : o.lview.chain ops' = some y')
    (mem mem' : Mem K) (ix : Idx) (a : K) (hw : x.write mem ix a = some mem') (ix' : Idx) :
    x'.read mem' ix' =
      if (y'.elt? ix').isSome ∧ y'.elt? ix' = y.elt? ix then some a else x'.read mem ix' := by
  have key : ∀ ops x y, o.view.chain ops = .ok x → o.lview.chain ops = some y →
      Refines o x y ∧ Proper o y := by
    intro ops x y hx hy
    rcases chain_refines o ops _ _ (refines_owner o) (proper_owner o) with
      ⟨x1, y1, hx1, hy1, hr, hpr⟩ | ⟨hx1, -⟩
    · rw [hx] at hx1; rw [hy] at hy1; cases hx1; cases hy1; exact ⟨hr, hpr⟩
    · exact absurd hx (hx1 x)
  obtain ⟨r1, p1⟩ := key _ _ _ hx hy
  obtain ⟨r2, p2⟩ := key _ _ _ hx' hy'
  simp only [AnyView.write, AnyView.read, refines_addr o _ _ r1, refines_addr o _ _ r2] at *
  cases h1 : y.elt? ix with
  | none => simp [h1] at hw
  | some q =>
    simp [h1] at hw; subst hw
    cases h2 : y'.elt? ix' with
    | none => simp
    | some q' =>
      by_cases hqq : q' = q
      · subst hqq; simp
      · have : o.cell q' ≠ o.cell q := fun e => hqq (cell_inj o _ _ (p2.1 _ _ h2) (p1.1 _ _ h1) e)
        simp [hqq, this]

/-- **C03** disjoint slices of one vector never affect each other. -/
theorem c03_disjoint_slices {K : Type _} (n : Nat) (a k b l : Int) (x x' : VView)
    (hx : (VView.mk 0 n 1).slice a k = .ok x) (hx' : (VView.mk 0 n 1).slice b l = .ok x')
    (hdisj : a + k ≤ b ∨ b + l ≤ a) (mem mem' : Mem K) (i j : Nat) (e : K)
    (hw : (AnyView.v x).write mem (.i i) e = some mem') (hj : j < x'.len) :
    (AnyView.v x').read mem' (.i j) = (AnyView.v x').read mem (.i j) := by
  simp only [VView.slice] at hx hx'
  split at hx <;> cases hx
  split at hx' <;> cases hx'
  rename_i h1 h2
  have h1 := (sliceOk_iff _ _ _).1 h1
  have h2 := (sliceOk_iff _ _ _).1 h2
  simp only [AnyView.write, AnyView.addr?, AnyView.read, VView.addr] at *
  split at hw
  · simp at hw; subst hw
    rename_i hi
    simp only [hj, if_true, Option.map_some, Option.some.injEq]
    rw [if_neg]; omega
  · simp at hw

example : (VView.mk 0 10 1).slice 2 3 = .ok ⟨2, 3, 1⟩ ∧ (VView.mk 0 10 1).slice 5 4 = .ok ⟨5, 4, 1⟩ ∧
    (AnyView.v ⟨2, 3, 1⟩).write (fun k => k) (.i 1) 100 ≠ none := by
  refine ⟨by decide, by decide, ?_⟩
  simp [AnyView.write, AnyView.addr?]

end TooN.View
