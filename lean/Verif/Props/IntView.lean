import Verif.Model.IntView
import Verif.Props.View
import Mathlib.Tactic
/-!
# C68: `int` arithmetic in index and view computations
-/
set_option linter.unusedSectionVars false
namespace TooN.View
open Checks (intMax intMin)

/-- the larger sizes of an object -/
def Owner.dims : Owner → Nat
  | .vec n => n
  | .rowMajor r c => r + c
  | .colMajor r c => r + c

/-- The arguments of a slice are such that `start + length` is an `int`. -/
def ViewOp.ArgsFit : ViewOp → Prop
  | .slice s l => IsInt (s + l)
  | .mslice a b c d => IsInt (a + c) ∧ IsInt (b + d)
  | _ => True

/-- invariant: bounds on strides and extents of a view of an object with `N` cells -/
def Fits (N S : Nat) : AnyView → Prop
  | .v x => x.stride ≤ S ∧ x.len * x.stride ≤ N + S
  | .m x => x.rs + x.cs ≤ S + 1 ∧ x.rows * x.rs ≤ N + S ∧ x.cols * x.cs ≤ N + S

theorem Fits.mono {N S S' : Nat} (h : S ≤ S') {x : AnyView} (hx : Fits N S x) : Fits N S' x := by
  cases x with
  | v x => exact ⟨hx.1.trans h, hx.2.trans (by omega)⟩
  | m x => exact ⟨hx.1.trans (by omega), hx.2.1.trans (by omega), hx.2.2.trans (by omega)⟩

/-- every element of the view is inside the object -/
def InB (N : Nat) (x : AnyView) : Prop := ∀ ix p, x.addr? ix = some p → p < N

theorem iadd_ok {a b : Int} (h0 : 0 ≤ a + b) (h : a + b ≤ intMax) : iadd a b = .ok (a + b) :=
  if_pos ⟨by unfold intMin; omega, h⟩
theorem imul_ok {a b N : Nat} (h : a * b ≤ N) (hN : (N : Int) ≤ intMax) :
    imul a b = .ok (((a * b : Nat)) : Int) := by
  unfold imul
  have : ((a : Int) * b) = ((a * b : Nat) : Int) := by push_cast; ring
  rw [this]
  exact if_pos ⟨by unfold intMin; omega, by omega⟩

theorem sliceOkI_eq {s a l : Int} (h : IsInt (a + l)) : sliceOkI s a l = .ok (sliceOk s a l) := by
  unfold sliceOkI iadd sliceOk
  rw [if_pos h]
  rfl

theorem apply_step {N S : Nat} (hS : 1 ≤ S) (hN : ((N + S + 1 : Nat) : Int) ≤ intMax) {x : AnyView}
    (hf : Fits N S x) (hb : InB N x) (op : ViewOp) (ha : op.ArgsFit) :
    x.applyI op = x.apply op ∧ ∀ y, x.apply op = .ok y → Fits N (S + 1) y := by
  cases x with
  | v x =>
    obtain ⟨h1, h2⟩ := hf
    cases op with
    | slice s l =>
      simp only [AnyView.applyI, AnyView.apply, VView.sliceI, VView.slice]
      rw [sliceOkI_eq ha, Outcome.bind_ok]
      by_cases hs : sliceOk x.len s l = true
      · rw [if_pos hs, if_pos hs]
        have hs' := (sliceOk_iff _ _ _).1 hs
        obtain ⟨s, rfl⟩ := Int.eq_ofNat_of_zero_le hs'.1
        obtain ⟨l, rfl⟩ := Int.eq_ofNat_of_zero_le hs'.2.1
        have hle : x.stride * s ≤ N + S := by
          calc x.stride * s ≤ x.stride * x.len := Nat.mul_le_mul_left _ (by omega)
            _ = x.len * x.stride := Nat.mul_comm _ _
            _ ≤ _ := h2
        rw [imul_ok hle (by omega)]
        refine ⟨rfl, fun y hy => ?_⟩
        simp only [Outcome.bind_ok] at hy
        cases hy
        refine ⟨by dsimp only; omega, ?_⟩
        dsimp only
        calc (l:Int).toNat * x.stride ≤ x.len * x.stride := Nat.mul_le_mul_right _ (by omega)
          _ ≤ _ := by omega
      · rw [if_neg hs, if_neg hs]
        exact ⟨rfl, fun y hy => by cases hy⟩
    | asRow =>
      refine ⟨rfl, fun y hy => ?_⟩
      cases hy
      exact ⟨by simp only [VView.asRow]; omega, by simp only [VView.asRow]; omega, by simp only [VView.asRow]; omega⟩
    | asCol =>
      refine ⟨rfl, fun y hy => ?_⟩
      cases hy
      exact ⟨by simp only [VView.asCol]; omega, by simp only [VView.asCol]; omega, by simp only [VView.asCol]; omega⟩
    | asSlice =>
      refine ⟨rfl, fun y hy => ?_⟩
      cases hy
      exact ⟨by simp only [VView.asSlice]; omega, by simp only [VView.asSlice]; omega⟩
    | row r => exact ⟨rfl, fun y hy => by cases hy⟩
    | mslice a b c d => exact ⟨rfl, fun y hy => by cases hy⟩
    | T => exact ⟨rfl, fun y hy => by cases hy⟩
    | diag => exact ⟨rfl, fun y hy => by cases hy⟩
  | m x =>
    obtain ⟨h1, h2, h3⟩ := hf
    cases op with
    | slice s l => exact ⟨rfl, fun y hy => by cases hy⟩
    | asRow => exact ⟨rfl, fun y hy => by cases hy⟩
    | asCol => exact ⟨rfl, fun y hy => by cases hy⟩
    | asSlice => exact ⟨rfl, fun y hy => by cases hy⟩
    | row r =>
      simp only [AnyView.applyI, AnyView.apply, MView.rowI, MView.row]
      by_cases hr : 0 ≤ r ∧ r < x.rows
      · rw [if_pos hr, if_pos hr]
        obtain ⟨r, rfl⟩ := Int.eq_ofNat_of_zero_le hr.1
        have hle : x.rs * r ≤ N + S := by
          calc x.rs * r ≤ x.rs * x.rows := Nat.mul_le_mul_left _ (by omega)
            _ = x.rows * x.rs := Nat.mul_comm _ _
            _ ≤ _ := h2
        rw [imul_ok hle (by omega)]
        refine ⟨rfl, fun y hy => ?_⟩
        simp only [Outcome.bind_ok] at hy
        cases hy
        exact ⟨by dsimp only; omega, by dsimp only; omega⟩
      · rw [if_neg hr, if_neg hr]
        exact ⟨rfl, fun y hy => by cases hy⟩
    | mslice a b c d =>
      simp only [AnyView.applyI, AnyView.apply, MView.sliceI, MView.slice]
      rw [sliceOkI_eq ha.1, Outcome.bind_ok, sliceOkI_eq ha.2]
      by_cases hs : sliceOk x.rows a c = true
      · rw [if_pos hs, if_pos hs, Outcome.bind_ok]
        by_cases ht : sliceOk x.cols b d = true
        · rw [if_pos ht, if_pos ht]
          have hs' := (sliceOk_iff _ _ _).1 hs
          have ht' := (sliceOk_iff _ _ _).1 ht
          obtain ⟨a, rfl⟩ := Int.eq_ofNat_of_zero_le hs'.1
          obtain ⟨c, rfl⟩ := Int.eq_ofNat_of_zero_le hs'.2.1
          obtain ⟨b, rfl⟩ := Int.eq_ofNat_of_zero_le ht'.1
          obtain ⟨d, rfl⟩ := Int.eq_ofNat_of_zero_le ht'.2.1
          have hle : x.rs * a ≤ N + S := by
            calc x.rs * a ≤ x.rs * x.rows := Nat.mul_le_mul_left _ (by omega)
              _ = x.rows * x.rs := Nat.mul_comm _ _
              _ ≤ _ := h2
          have hle' : x.cs * b ≤ N + S := by
            calc x.cs * b ≤ x.cs * x.cols := Nat.mul_le_mul_left _ (by omega)
              _ = x.cols * x.cs := Nat.mul_comm _ _
              _ ≤ _ := h3
          rw [imul_ok hle (by omega), Outcome.bind_ok, imul_ok hle' (by omega)]
          refine ⟨rfl, fun y hy => ?_⟩
          simp only [Outcome.bind_ok] at hy
          cases hy
          refine ⟨by dsimp only; omega, ?_, ?_⟩
          · dsimp only
            calc (c:Int).toNat * x.rs ≤ x.rows * x.rs := Nat.mul_le_mul_right _ (by omega)
              _ ≤ _ := by omega
          · dsimp only
            calc (d:Int).toNat * x.cs ≤ x.cols * x.cs := Nat.mul_le_mul_right _ (by omega)
              _ ≤ _ := by omega
        · rw [if_neg ht, if_neg ht]
          exact ⟨rfl, fun y hy => by cases hy⟩
      · rw [if_neg hs, if_neg hs]
        exact ⟨rfl, fun y hy => by cases hy⟩
    | T =>
      refine ⟨rfl, fun y hy => ?_⟩
      cases hy
      exact ⟨by simp only [MView.T]; omega, by simp only [MView.T]; omega, by simp only [MView.T]; omega⟩
    | diag =>
      simp only [AnyView.applyI, AnyView.apply, MView.diagI, MView.diag]
      rw [iadd_ok (by omega) (by omega)]
      refine ⟨by simp only [Outcome.bind_ok]; congr 3, fun y hy => ?_⟩
      cases hy
      refine ⟨h1, ?_⟩
      dsimp only
      rcases Nat.eq_zero_or_pos (min x.cols x.rows) with h0 | h0
      · rw [h0]; omega
      · have := hb (.rc (min x.cols x.rows - 1) (min x.cols x.rows - 1)) _ (if_pos ⟨by omega, by omega⟩)
        unfold MView.addr at this
        generalize min x.cols x.rows = q at *
        obtain ⟨q, rfl⟩ : ∃ k, q = k + 1 := ⟨q - 1, by omega⟩
        simp only [Nat.add_sub_cancel] at this
        have e : (q + 1) * (x.rs + x.cs) = q * x.rs + q * x.cs + (x.rs + x.cs) := by ring
        rw [e]
        omega

theorem chain_step {N S : Nat} (hS : 1 ≤ S) {x : AnyView} (ops : List ViewOp)
    (hN : ((N + S + ops.length : Nat) : Int) ≤ intMax) (hf : Fits N S x)
    (hb : ∀ pre y, pre <+: ops → x.chain pre = .ok y → InB N y) (ha : ∀ op ∈ ops, op.ArgsFit) :
    x.chainI ops = x.chain ops ∧ ∀ y, x.chain ops = .ok y → Fits N (S + ops.length) y := by
  induction ops generalizing x S with
  | nil =>
    refine ⟨rfl, fun y hy => ?_⟩
    cases hy
    exact hf
  | cons op ops ih =>
    simp only [List.length_cons] at hN ⊢
    obtain ⟨h1, h2⟩ := apply_step hS (by omega) hf (hb [] x (List.nil_prefix) rfl) op
      (ha op (List.mem_cons_self ..))
    simp only [AnyView.chainI, AnyView.chain]
    rw [h1]
    cases hx : x.apply op with
    | ok z =>
      simp only [Outcome.bind_ok]
      have := ih (S := S + 1) (x := z) (by omega) (by omega) (h2 z hx) (fun pre y hp hy => by
        refine hb (op :: pre) y (by simpa using hp) ?_
        simp only [AnyView.chain]
        rw [hx, Outcome.bind_ok]
        exact hy) (fun o ho => ha o (List.mem_cons_of_mem _ ho))
      rw [show S + (ops.length + 1) = S + 1 + ops.length by omega]
      exact this
    | abort => exact ⟨rfl, fun y hy => by cases hy⟩
    | ub => exact ⟨rfl, fun y hy => by cases hy⟩

theorem fits_owner (o : Owner) : Fits o.cells (o.dims + 1) o.view := by
  cases o with
  | vec n => exact ⟨by dsimp only; omega, by simp [Owner.cells, Owner.dims]⟩
  | rowMajor r c =>
    exact ⟨by simp only [Owner.dims]; omega, by simp only [Owner.cells]; omega, by simp only [Owner.dims, Owner.cells]; omega⟩
  | colMajor r c =>
    refine ⟨by simp only [Owner.dims]; omega, by simp only [Owner.dims, Owner.cells]; omega, ?_⟩
    simp only [Owner.cells]
    rw [Nat.mul_comm c r]; omega

theorem inB_owner (o : Owner) (ops : List ViewOp) (y : AnyView) (h : o.view.chain ops = .ok y) :
    InB o.cells y := fun ix p hp => c02_in_bounds o ops y h ix p hp

/-- **C68** (views) For an object whose number of elements, plus its sizes, plus the length of the chain,
is an `int`, every chain of views performs the same computation on machine `int`s as on unbounded
integers: no addition or multiplication overflows, provided that the arguments of each slice add up to an
`int`. -/
theorem c68_views (o : Owner) (ops : List ViewOp) (ha : ∀ op ∈ ops, op.ArgsFit)
    (hN : ((o.cells + o.dims + 1 + ops.length : Nat) : Int) ≤ intMax) :
    o.view.chainI ops = o.view.chain ops :=
  (chain_step (N := o.cells) (S := o.dims + 1) (by omega) ops (by push_cast at hN ⊢; omega) (fits_owner o)
    (fun pre y _ hy => inB_owner o pre y hy) ha).1

/-- **C68** (elements) … and neither does the computation of the address of any element of the view. -/
theorem c68_elements (o : Owner) (ops : List ViewOp)
    (hN : (o.cells : Int) ≤ intMax) {x : AnyView}
    (hx : o.view.chain ops = .ok x) (ix : Idx) (p : Nat) (hp : x.addr? ix = some p) :
    x.addrI ix = .ok p := by
  have hb := c02_in_bounds o ops x hx ix p hp
  cases x with
  | v x =>
    cases ix with
    | i k =>
      simp only [AnyView.addr?, AnyView.addrI] at hp ⊢
      split at hp
      · rename_i hk
        cases hp
        rw [if_pos hk]
        unfold VView.addrI
        unfold VView.addr at hb
        rw [imul_ok (N := o.cells) (by omega) hN]
        rfl
      · cases hp
    | rc r c => cases hp
  | m x =>
    cases ix with
    | i k => cases hp
    | rc r c =>
      simp only [AnyView.addr?, AnyView.addrI] at hp ⊢
      split at hp
      · rename_i hk
        cases hp
        rw [if_pos hk]
        unfold MView.addrI
        unfold MView.addr at hb
        rw [imul_ok (N := o.cells) (by omega) hN, Outcome.bind_ok, imul_ok (N := o.cells) (by omega) hN,
          Outcome.bind_ok, iadd_ok (by omega) (by omega), Outcome.bind_ok]
        congr 1
      · cases hp

/-- **C68** (allocation) A matrix constructor asks for exactly `rows * cols` elements if that is an `int`. -/
theorem c68_alloc (r c : Nat) : ((r * c : Nat) : Int) ≤ intMax ↔ allocMatI r c = .ok (r * c) := by
  constructor
  · intro h
    unfold allocMatI
    rw [imul_ok (le_refl _) h, Outcome.bind_ok]
    unfold allocVecI
    rw [if_pos (by omega)]
    rfl
  · intro h
    unfold allocMatI imul at h
    split at h
    · rename_i hi
      have := hi.2
      push_cast
      exact this
    · cases h

/-- **C68** (safety on machine integers) Allocate a matrix, take any chain of views, access any element by an
index in range: if the allocation succeeds without overflow and the sizes are as in `c68_views`, the access is
inside the allocated block, and at the cell C01 says. -/
theorem c68_in_bounds (r c N : Nat) (halloc : allocMatI r c = .ok N) (ops : List ViewOp)
    (ha : ∀ op ∈ ops, op.ArgsFit) (hN : ((N + (r + c) + 1 + ops.length : Nat) : Int) ≤ intMax) {x : AnyView}
    (hx : (Owner.rowMajor r c).view.chainI ops = .ok x) {ix : Idx} {y : LView}
    (hy : (Owner.rowMajor r c).lview.chain ops = some y) (hix : (y.elt? ix).isSome) :
    ∃ p, x.addrI ix = .ok p ∧ p < N ∧ (y.elt? ix).map (Owner.rowMajor r c).cell = some p := by
  have hNe : N = r * c := by
    unfold allocMatI imul at halloc
    split at halloc
    · rw [Outcome.bind_ok] at halloc
      unfold allocVecI at halloc
      split at halloc
      · injection halloc with h
        rw [← h]
        have : ((r : Int) * c) = ((r * c : Nat) : Int) := by push_cast; ring
        rw [this]; rfl
      · cases halloc
    · cases halloc
  subst hNe
  rw [c68_views (.rowMajor r c) ops ha hN] at hx
  have h1 := (c01_views_address_right_element (.rowMajor r c) ops).2 x y hx hy ix
  obtain ⟨q, hq⟩ := Option.isSome_iff_exists.1 hix
  rw [hq] at h1
  refine ⟨_, c68_elements (.rowMajor r c) ops (by simp only [Owner.cells]; omega) hx ix _ h1,
    c02_in_bounds (.rowMajor r c) ops x hx ix _ h1, by rw [hq]; rfl⟩

/-- The condition is necessary: `Matrix<> m(65536, 65536)` asks for 0 elements (when the overflow wraps), although
`m(0,0)` is a legal index, so even the first element is outside the allocated memory. -/
theorem c68_alloc_wrong : allocMatI 65536 65536 = .ub ∧ allocMatWrapped 65536 65536 = .ok 0 ∧
    (Owner.rowMajor 65536 65536).view.addr? (.rc 0 0) = some 0 :=
  ⟨rfl, rfl, rfl⟩

/-- A negative number of elements makes `new` throw. -/
theorem c68_alloc_negative (n : Int) (h : n < 0) : allocVecI n = .abort := if_neg (by omega)

/-- The condition on the arguments of a slice is necessary: `v.slice(1, INT_MAX)` overflows in the check itself. -/
theorem c68_slice_args_wrong : (Owner.vec 5).view.chainI [.slice 1 intMax] = .ub ∧
    (Owner.vec 5).view.chain [.slice 1 intMax] = .abort := by
  constructor <;> decide

/-- … and so is the condition on the sizes: `diagonal_slice()` of a 1×(2³¹-1) matrix overflows in
`rowstride() + colstride()` although the matrix itself is legal. -/
theorem c68_diag_wrong : ((Owner.rowMajor 1 2147483647).cells : Int) ≤ intMax ∧
    (Owner.rowMajor 1 2147483647).view.chainI [.diag] = .ub ∧
    ∃ x, (Owner.rowMajor 1 2147483647).view.chain [.diag] = .ok x := by
  refine ⟨by decide, by decide, _, rfl⟩

/-- A 40000 × 50000 matrix (2·10⁹ elements): every chain of at most 10⁷ views of it is free of overflow. -/
example (ops : List ViewOp) (ha : ∀ op ∈ ops, op.ArgsFit) (hl : ops.length ≤ 10000000) :
    (Owner.rowMajor 40000 50000).view.chainI ops = (Owner.rowMajor 40000 50000).view.chain ops := by
  refine c68_views _ ops ha ?_
  simp only [Owner.cells, Owner.dims, intMax]
  omega

end TooN.View
