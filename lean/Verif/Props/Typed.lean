import Verif.Model.Typed
import Verif.Proof.View
import Verif.Props.View
import Mathlib.Tactic.Common
import Mathlib.Tactic.SplitIfs
/-!
# C60: sizes and strides in the types never disagree with the run-time ones

Every chain of view operations on an object whose sizes (and those of the slices taken) are any mixture of template and
run-time numbers denotes the same elements as the chain on a fully dynamic object of the same shape.
-/
set_option linter.unusedVariables false
namespace TooN.Typed
open TooN.Checks TooN.View

/-- the typed object and the plain view have the same size, and element `i` at the same address -/
def SameV (x : TV) (y : VView) : Prop := x.size = y.len ∧ ∀ i : Nat, i < y.len → x.addr i = y.addr i
/-- likewise for matrices -/
def SameM (x : TM) (y : MView) : Prop :=
  x.numRows = y.rows ∧ x.numCols = y.cols ∧ ∀ r c : Nat, r < y.rows → c < y.cols → x.addr r c = y.addr r c

def Same : TAny → AnyView → Prop
  | .v x, .v y => SameV x y
  | .m x, .m y => SameM x y
  | _, _ => False

/-- the run-time meaning of a typed operation: a template argument, where given, is the number used -/
def TOp.plain : TOp → ViewOp
  | .slice S L s l => .slice (if S = -1 then s else S) (if L = -1 then l else L)
  | .sliceS S L => .slice S L
  | .asRow => .asRow
  | .asCol => .asCol
  | .asSlice => .asSlice
  | .row r => .row r
  | .mslice a b c d e f g h =>
    .mslice (if a = -1 then e else a) (if b = -1 then f else b) (if c = -1 then g else c) (if d = -1 then h else d)
  | .msliceS a b c d => .mslice a b c d
  | .T => .T
  | .diag => .diag

/-- the plain object of the same shape -/
def TOwner.plain : TOwner → Owner
  | .vec Size n => .vec (if Size = -1 ∨ Size = -0x7fffffff then n else Size).toNat
  | .rowMajor R C r c => .rowMajor (if R = -1 then r else R).toNat (if C = -1 then c else C).toNat
  | .colMajor R C r c => .colMajor (if R = -1 then r else R).toNat (if C = -1 then c else C).toNat

/-- a template size is a number or `Dynamic`, and a run-time size is not negative -/
def okSize (S s : Int) : Prop := 0 ≤ S ∨ (S = -1 ∧ 0 ≤ s)

def TOwner.valid : TOwner → Prop
  | .vec Size n => okSize Size n ∨ (Size = -0x7fffffff ∧ 0 ≤ n)
  | .rowMajor R C r c => okSize R r ∧ okSize C c
  | .colMajor R C r c => okSize R r ∧ okSize C c

/-- a `Resizable` vector -/
def TOwner.resizable : TOwner → Prop
  | .vec Size _ => Size = -0x7fffffff
  | _ => False

/-- `as_row`, `as_col`, `as_slice` -/
def TOp.whole : TOp → Prop
  | .asRow | .asCol | .asSlice => True
  | _ => False

/-- template and run-time arguments, where both are given, agree -/
def TOp.consistent : TOp → Prop
  | .slice S L s l => (S = -1 ∨ S = s) ∧ (L = -1 ∨ L = l)
  | .mslice a b c d e f g h => (a = -1 ∨ a = e) ∧ (b = -1 ∨ b = f) ∧ (c = -1 ∨ c = g) ∧ (d = -1 ∨ d = h)
  | _ => True

/-- no template size is zero (the code rejects slicing a `Vector<0>` at compile time) -/
def TOp.noZero : TOp → Prop
  | .slice _ L _ _ => L ≠ 0
  | .sliceS _ L => L ≠ 0
  | .mslice _ _ c d _ _ _ _ => c ≠ 0 ∧ d ≠ 0
  | .msliceS _ _ c d => c ≠ 0 ∧ d ≠ 0
  | _ => True

def TOwner.noZero : TOwner → Prop
  | .vec Size _ => Size ≠ 0
  | .rowMajor R C _ _ => R ≠ 0 ∧ C ≠ 0
  | .colMajor R C _ _ => R ≠ 0 ∧ C ≠ 0

/-- the typed program and the plain one do the same thing -/
def Matches : Res TAny → Outcome AnyView → Prop
  | .ok x, .ok y => Same x y
  | .abort, .abort => True
  | .compileError, .abort => True
  | .ub, .ub => True
  | _, _ => False

/-! ## Invariant -/

/-- full agreement: tags match values, members match -/
structure AgV (x : TV) (y : VView) : Prop where
  off : x.off = y.off
  size : x.size = y.len
  stride : x.stride = y.stride
  tag : 0 ≤ x.Size ∨ x.Size = -1 ∨ (x.Size = -0x7fffffff ∧ x.owns = true)
  stag : x.Stride = -1 ∨ 0 ≤ x.Stride

structure AgM (x : TM) (y : MView) : Prop where
  off : x.off = y.off
  rows : x.numRows = y.rows
  cols : x.numCols = y.cols
  rs : x.rowstride = y.rs
  cs : x.colstride = y.cs
  rtag : 0 ≤ x.Rows ∨ x.Rows = -1
  ctag : 0 ≤ x.Cols ∨ x.Cols = -1
  rstag : x.RowStride = -1 ∨ x.RowStride = -2 ∨ 0 ≤ x.RowStride
  cstag : x.ColStride = -1 ∨ x.ColStride = -2 ∨ 0 ≤ x.ColStride

def Ag : TAny → AnyView → Prop
  | .v x, .v y => AgV x y
  | .m x, .m y => AgM x y
  | _, _ => False

def NotRes : TAny → Prop
  | .v x => x.Size ≠ -0x7fffffff
  | .m _ => True

def NZ : TAny → Prop
  | .v x => x.Size ≠ 0
  | .m x => x.Rows ≠ 0 ∧ x.Cols ≠ 0

theorem Ag.same {x : TAny} {y : AnyView} (h : Ag x y) : Same x y := by
  match x, y, h with
  | .v x, .v y, h =>
    refine ⟨h.size, fun i _ => ?_⟩
    rw [TV.addr, VView.addr, h.off, h.stride]; push_cast; rfl
  | .m x, .m y, h =>
    refine ⟨h.rows, h.cols, fun r c _ _ => ?_⟩
    rw [TM.addr, MView.addr, h.off, h.rs, h.cs]; push_cast; rfl

theorem pick_size {x : TV} {y : VView} (h : AgV x y) : x.size = pick x.Size x.size := by
  unfold pick
  split_ifs with h1
  · rfl
  · have := h.tag
    simp only [Checks.Dynamic, Resizable, not_or] at h1
    rw [TV.size, Checks.Dynamic, if_neg h1.1, if_neg (by rw [Resizable]; omega)]

theorem pick_holder {S s : Int} (h : 0 ≤ S ∨ S = -1) : sizeHolder S s = pick S (sizeHolder S s) := by
  unfold pick sizeHolder
  simp only [Checks.Dynamic, Resizable]
  split_ifs <;> omega

/-- the check accepts: the numbers used are in range -/
theorem check_ok {Size S L n s l : Int} (h : check Size S L n s l = .ok) (hn : n = pick Size n) :
    (S = -1 ∨ 0 ≤ S) ∧ (L = -1 ∨ 0 ≤ L) ∧ 0 ≤ sel S s ∧ 0 ≤ sel L l ∧ sel S s + sel L l ≤ n := by
  unfold check badSlice at h
  split_ifs at h with h1 h2 h3 h4 h5
  simp only [List.any_cons, List.any_nil, id, Bool.or_false, Bool.or_eq_true, not_or, Bool.not_eq_true',
    Bool.not_eq_true, Bool.or_eq_false_iff, Bool.not_eq_false', beq_iff_eq, decide_eq_true_eq, bne_iff_ne] at h1 h5
  have hS : S = -1 ∨ 0 ≤ S := by
    have := h1.2.1; simp [Checks.Dynamic] at this; omega
  have hL : L = -1 ∨ 0 ≤ L := by
    have := h1.2.2.1; simp [Checks.Dynamic] at this; omega
  have e1 : pick S s = sel S s := by
    unfold pick sel
    have : S ≠ Resizable := by rw [Resizable]; omega
    simp [this]
  have e2 : pick L l = sel L l := by
    unfold pick sel
    have : L ≠ Resizable := by rw [Resizable]; omega
    simp [this]
  rw [e1, e2, ← hn] at h5
  omega

/-- the check rejects consistent arguments: the numbers are out of range (or the size is a literal zero) -/
theorem check_not_ok {Size S L n s l : Int} (h : check Size S L n s l ≠ .ok) (hn : n = pick Size n)
    (hs : S = -1 ∨ S = s) (hl : L = -1 ∨ L = l) (hz : Size = -1 ∨ Size = -0x7fffffff ∨ 0 < Size) :
    ¬ (0 ≤ sel S s ∧ 0 ≤ sel L l ∧ sel S s + sel L l ≤ n) := by
  intro hh
  apply h
  have hS : S = -1 ∨ (S = s ∧ 0 ≤ S) := by
    rcases hs with hs | hs
    · exact .inl hs
    · by_cases e : S = -1
      · exact .inl e
      · refine .inr ⟨hs, ?_⟩
        have := hh.1; rw [sel, Checks.Dynamic, if_neg e] at this; exact this
  have hL : L = -1 ∨ (L = l ∧ 0 ≤ L) := by
    rcases hl with hs | hs
    · exact .inl hs
    · by_cases e : L = -1
      · exact .inl e
      · refine .inr ⟨hs, ?_⟩
        have := hh.2.1; rw [sel, Checks.Dynamic, if_neg e] at this; exact this
  have e1 : pick S s = sel S s := by
    unfold pick sel
    have : S ≠ Resizable := by rw [Resizable]; omega
    simp [this]
  have e2 : pick L l = sel L l := by
    unfold pick sel
    have : L ≠ Resizable := by rw [Resizable]; omega
    simp [this]
  have hSv : S = -1 ∨ sel S s = S := by
    unfold sel; rw [Checks.Dynamic]; split_ifs with h <;> simp [h]
  have hLv : L = -1 ∨ sel L l = L := by
    unfold sel; rw [Checks.Dynamic]; split_ifs with h <;> simp [h]
  have hNv : Size = -1 ∨ Size = -0x7fffffff ∨ n = Size := by
    unfold pick at hn; rw [Checks.Dynamic, Resizable] at hn
    split_ifs at hn with h
    · omega
    · exact .inr (.inr hn)
  have hsz : ¬ (!(Size == -1 || Size == -0x7fffffff || decide (Size > 0))) = true := by
    simp; omega
  unfold check badSlice
  rw [e1, e2, ← hn]
  generalize sel S s = a at *
  generalize sel L l = b at *
  have k1 : (Size ≠ -1 ∧ Size ≠ -0x7fffffff → n = Size) := by omega
  rw [if_neg, if_neg, if_neg, if_neg, if_neg]
  · simp; omega
  · simp [Checks.Dynamic, Resizable]; omega
  · simp [Checks.Dynamic, Resizable]; omega
  · simp [Checks.Dynamic, Resizable]; omega
  · simp only [List.any_cons, List.any_nil, id, Bool.or_false, Bool.or_eq_true, not_or]
    refine ⟨hsz, ?_, ?_, ?_, ?_, ?_⟩ <;> simp [Checks.Dynamic, Resizable] <;> omega

theorem sel_eq (S s : Int) : (if S = -1 then s else S) = sel S s := rfl

theorem sliceStride_ok {S : Int} (h : S = -1 ∨ S = -2 ∨ 0 ≤ S) : sliceStride S = -1 ∨ 0 ≤ sliceStride S := by
  unfold sliceStride; split_ifs <;> omega

theorem holder_self (S v : Int) (h : S = -1 ∨ S = v) : sizeHolder S v = v := by
  unfold sizeHolder; split_ifs <;> omega

/-- the size returned by a slice whose template size is `L` -/
theorem sel_size (L l : Int) : (if L = -1 then sel L l else L) = sel L l := by
  unfold sel Checks.Dynamic; split_ifs <;> rfl

theorem rowstride_slice (m : TM) (h : m.RowStride = -1 ∨ m.RowStride = -2 ∨ 0 ≤ m.RowStride) :
    strideHolder (sliceStride m.RowStride) m.rowstride = m.rowstride := by
  unfold strideHolder sliceStride TM.rowstride strideHolder
  split_ifs <;> first | rfl | omega

theorem colstride_slice (m : TM) (h : m.ColStride = -1 ∨ m.ColStride = -2 ∨ 0 ≤ m.ColStride) :
    strideHolder (sliceStride m.ColStride) m.colstride = m.colstride := by
  unfold strideHolder sliceStride TM.colstride strideHolder
  split_ifs <;> first | rfl | omega

theorem slice_ag {x : TV} {y : VView} (h : AgV x y) {S L s l : Int}
    (hc : check x.Size S L x.size s l = .ok) :
    sliceOk y.len (sel S s) (sel L l) = true ∧
    AgV ⟨L, x.Stride, false, x.off + x.stride * sel S s, sel L l, x.stride⟩
      ⟨y.off + y.stride * (sel S s).toNat, (sel L l).toNat, y.stride⟩ := by
  obtain ⟨h1, h2, h3, h4, h5⟩ := check_ok hc (pick_size h)
  rw [h.size] at h5
  refine ⟨(sliceOk_iff _ _ _).2 ⟨h3, h4, h5⟩, ?_, ?_, ?_, ?_, ?_⟩
  · dsimp only; rw [h.off, h.stride]; push_cast; rw [Int.toNat_of_nonneg h3]
  · dsimp only
    rw [TV.size, Int.toNat_of_nonneg h4]
    dsimp only
    rw [Checks.Dynamic, if_neg (show ¬ (L = Resizable ∧ false = true) by simp), sel_size]
  · rw [TV.stride]; dsimp only; rw [← h.stride]
    split_ifs with e
    · rfl
    · rw [TV.stride, if_neg e]
  · dsimp only; omega
  · exact h.stag

theorem mslice_ag {x : TM} {y : MView} (h : AgM x y) {a b c d e f g k : Int}
    (hr : check x.Rows a c x.numRows e g = .ok) (hc : check x.Cols b d x.numCols f k = .ok) :
    sliceOk y.rows (sel a e) (sel c g) = true ∧ sliceOk y.cols (sel b f) (sel d k) = true ∧
    AgM ⟨c, d, sliceStride x.RowStride, sliceStride x.ColStride,
      x.off + x.rowstride * sel a e + x.colstride * sel b f, sel c g, sel d k, x.rowstride, x.colstride⟩
      ⟨y.off + y.rs * (sel a e).toNat + y.cs * (sel b f).toNat, (sel c g).toNat, (sel d k).toNat, y.rs, y.cs⟩ := by
  obtain ⟨h1, h2, h3, h4, h5⟩ := check_ok hr (pick_holder h.rtag)
  obtain ⟨g1, g2, g3, g4, g5⟩ := check_ok hc (pick_holder h.ctag)
  rw [h.rows] at h5
  rw [h.cols] at g5
  have r1 := sliceStride_ok h.rstag
  have r2 := sliceStride_ok h.cstag
  refine ⟨(sliceOk_iff _ _ _).2 ⟨h3, h4, h5⟩, (sliceOk_iff _ _ _).2 ⟨g3, g4, g5⟩, ?_, ?_, ?_, ?_, ?_, ?_, ?_, ?_, ?_⟩
  · dsimp only; rw [h.off, h.rs, h.cs]; push_cast; rw [Int.toNat_of_nonneg h3, Int.toNat_of_nonneg g3]
  · rw [TM.numRows, sizeHolder]; dsimp only; rw [sel_size, Int.toNat_of_nonneg h4]
  · rw [TM.numCols, sizeHolder]; dsimp only; rw [sel_size, Int.toNat_of_nonneg g4]
  · rw [TM.rowstride]; dsimp only
    rw [if_neg (by omega), rowstride_slice x h.rstag, h.rs]
  · rw [TM.colstride]; dsimp only
    rw [if_neg (by omega), colstride_slice x h.cstag, h.cs]
  · dsimp only; omega
  · dsimp only; omega
  · dsimp only; omega
  · dsimp only; omega

/-- the conclusion of one step -/
def Step (x' : Res TAny) (y' : Outcome AnyView) (good : Prop) : Prop :=
  match x' with
  | .ok x' => ∃ y₁, y' = .ok y₁ ∧ Ag x' y₁ ∧ NotRes x' ∧ (good → NZ x')
  | .abort => good → y' = .abort
  | .compileError => good → y' = .abort
  | .ub => good → y' = .ub

theorem asRow_ag {x : TV} {y : VView} (h : AgV x y) (hR : x.Size ≠ -0x7fffffff) : AgM x.asRow y.asRow := by
  have ht := h.tag
  have hs := h.stag
  refine ⟨h.off, rfl, ?_, ?_, ?_, Or.inl (show (0:Int) ≤ 1 by decide), ?_, Or.inr (Or.inr (show (0:Int) ≤ 1 by decide)), ?_⟩
  · show sizeHolder x.Size x.size = y.len
    rw [← h.size, TV.size, Checks.Dynamic, Resizable]
    unfold sizeHolder
    split_ifs <;> first | rfl | omega
  · rfl
  · show (if x.Stride = -2 then _ else strideHolder x.Stride x.stride) = (y.stride : Int)
    rw [if_neg (by omega), ← h.stride, TV.stride]
    unfold strideHolder
    split_ifs <;> rfl
  · show 0 ≤ x.Size ∨ x.Size = -1
    omega
  · show x.Stride = -1 ∨ x.Stride = -2 ∨ 0 ≤ x.Stride
    omega

theorem asCol_ag {x : TV} {y : VView} (h : AgV x y) (hR : x.Size ≠ -0x7fffffff) : AgM x.asCol y.asCol := by
  have ht := h.tag
  have hs := h.stag
  refine ⟨h.off, ?_, rfl, ?_, ?_, ?_, Or.inl (show (0:Int) ≤ 1 by decide), ?_, Or.inr (Or.inr (show (0:Int) ≤ 1 by decide))⟩
  · show sizeHolder x.Size x.size = y.len
    rw [← h.size, TV.size, Checks.Dynamic, Resizable]
    unfold sizeHolder
    split_ifs <;> first | rfl | omega
  · show (if x.Stride = -2 then _ else strideHolder x.Stride x.stride) = (y.stride : Int)
    rw [if_neg (by omega), ← h.stride, TV.stride]
    unfold strideHolder
    split_ifs <;> rfl
  · rfl
  · show 0 ≤ x.Size ∨ x.Size = -1
    omega
  · show x.Stride = -1 ∨ x.Stride = -2 ∨ 0 ≤ x.Stride
    omega

theorem asSlice_ag {x : TV} {y : VView} (h : AgV x y) (hR : x.Size ≠ -0x7fffffff) : AgV x.asSlice y.asSlice := by
  have ht := h.tag
  have hs := h.stag
  refine ⟨h.off, ?_, ?_, ?_, hs⟩
  · show (if x.Size = Checks.Dynamic then x.size else if x.Size = Resizable ∧ false = true then x.size else x.Size) = (y.len : Int)
    rw [← h.size, TV.size, Checks.Dynamic, Resizable]
    split_ifs <;> first | rfl | omega
  · show (if x.Stride = -1 then x.stride else x.Stride) = (y.stride : Int)
    rw [← h.stride, TV.stride]
    split_ifs <;> rfl
  · show 0 ≤ x.Size ∨ x.Size = -1 ∨ _
    omega

theorem T_ag {x : TM} {y : MView} (h : AgM x y) : AgM x.T y.T := by
  have r1 := sliceStride_ok h.rstag
  have r2 := sliceStride_ok h.cstag
  refine ⟨h.off, ?_, ?_, ?_, ?_, h.ctag, h.rtag, ?_, ?_⟩
  · show sizeHolder x.Cols x.numCols = y.cols
    rw [← h.cols]; unfold TM.numCols sizeHolder; split_ifs <;> rfl
  · show sizeHolder x.Rows x.numRows = y.rows
    rw [← h.rows]; unfold TM.numRows sizeHolder; split_ifs <;> rfl
  · show (if sliceStride x.ColStride = -2 then _ else strideHolder (sliceStride x.ColStride) x.colstride) = (y.cs : Int)
    rw [if_neg (by omega), colstride_slice x h.cstag, h.cs]
  · show (if sliceStride x.RowStride = -2 then _ else strideHolder (sliceStride x.RowStride) x.rowstride) = (y.rs : Int)
    rw [if_neg (by omega), rowstride_slice x h.rstag, h.rs]
  · show sliceStride x.ColStride = -1 ∨ sliceStride x.ColStride = -2 ∨ 0 ≤ sliceStride x.ColStride
    omega
  · show sliceStride x.RowStride = -1 ∨ sliceStride x.RowStride = -2 ∨ 0 ≤ sliceStride x.RowStride
    omega

theorem row_ag {x : TM} {y : MView} (h : AgM x y) (r : Int) (hr : 0 ≤ r) :
    AgV ⟨x.Cols, sliceStride x.ColStride, false, x.off + x.rowstride * r, x.numCols, x.colstride⟩
      ⟨y.off + y.rs * r.toNat, y.cols, y.cs⟩ := by
  have r2 := sliceStride_ok h.cstag
  refine ⟨?_, ?_, ?_, ?_, r2⟩
  · dsimp only; rw [h.off, h.rs]; push_cast; rw [Int.toNat_of_nonneg hr]
  · show (if x.Cols = Checks.Dynamic then x.numCols else if x.Cols = Resizable ∧ false = true then _ else x.Cols) = (y.cols : Int)
    rw [← h.cols, TM.numCols]; unfold sizeHolder Checks.Dynamic; split_ifs <;> rfl
  · show strideHolder (sliceStride x.ColStride) x.colstride = (y.cs : Int)
    rw [colstride_slice x h.cstag, h.cs]
  · show 0 ≤ x.Cols ∨ x.Cols = -1 ∨ _
    have := h.ctag; omega

theorem diag_ag {x : TM} {y : MView} (h : AgM x y) : AgV x.diag y.diag := by
  have r1 := sliceStride_ok h.rstag
  have r2 := sliceStride_ok h.cstag
  have q1 := rowstride_slice x h.rstag
  have q2 := colstride_slice x h.cstag
  have q3 := h.rows
  have q4 := h.cols
  have t1 := h.rtag
  have t2 := h.ctag
  unfold TM.numRows sizeHolder at q3
  unfold TM.numCols sizeHolder at q4
  unfold strideHolder at q1 q2
  refine ⟨h.off, ?_, ?_, ?_, ?_⟩
  · show (if diagSize x.Rows x.Cols = Checks.Dynamic then min x.numCols x.numRows
      else if diagSize x.Rows x.Cols = Resizable ∧ false = true then _ else diagSize x.Rows x.Cols) =
      ((min y.cols y.rows : Nat) : Int)
    rw [h.rows, h.cols]
    unfold diagSize Checks.Dynamic
    push_cast
    split_ifs at * <;> first | rfl | omega | simp at *
  · show (if diagStride (sliceStride x.RowStride) (sliceStride x.ColStride) = -1 then x.rowstride + x.colstride
      else diagStride (sliceStride x.RowStride) (sliceStride x.ColStride)) = ((y.rs + y.cs : Nat) : Int)
    rw [show ((y.rs + y.cs : Nat) : Int) = (y.rs : Int) + y.cs by omega, ← h.rs, ← h.cs]
    unfold diagStride Checks.Dynamic
    generalize sliceStride x.RowStride = A at *
    generalize sliceStride x.ColStride = B at *
    generalize x.rowstride = C at *
    generalize x.colstride = D at *
    split_ifs at * <;> omega
  · show 0 ≤ diagSize x.Rows x.Cols ∨ diagSize x.Rows x.Cols = -1 ∨ _
    unfold diagSize Checks.Dynamic
    split_ifs <;> omega
  · show diagStride _ _ = -1 ∨ 0 ≤ diagStride _ _
    unfold diagStride Checks.Dynamic
    generalize sliceStride x.RowStride = A at *
    generalize sliceStride x.ColStride = B at *
    split_ifs <;> omega

theorem slice_step {x : TV} {y : VView} (h : AgV x y) (S L s l : Int) (good : Prop)
    (hg : good → (S = -1 ∨ S = s) ∧ (L = -1 ∨ L = l) ∧ x.Size ≠ 0 ∧ L ≠ 0) :
    Step ((x.slice S L s l).map .v) ((y.slice (sel S s) (sel L l)).bind fun z => .ok (.v z)) good := by
  unfold TV.slice VView.slice
  cases hc : check x.Size S L x.size s l with
  | ok =>
    obtain ⟨h1, h2⟩ := slice_ag h hc
    rw [if_pos h1]
    refine ⟨_, rfl, h2, ?_, fun g => (hg g).2.2.2⟩
    have := (check_ok hc (pick_size h)).2.1
    show L ≠ _
    omega
  | compileError =>
    intro g
    obtain ⟨g1, g2, g3, -⟩ := hg g
    have := check_not_ok (by rw [hc]; decide) (pick_size h) g1 g2 (by have := h.tag; omega)
    rw [if_neg (by rw [sliceOk_iff, ← h.size]; exact this)]
    rfl
  | abort =>
    intro g
    obtain ⟨g1, g2, g3, -⟩ := hg g
    have := check_not_ok (by rw [hc]; decide) (pick_size h) g1 g2 (by have := h.tag; omega)
    rw [if_neg (by rw [sliceOk_iff, ← h.size]; exact this)]
    rfl

theorem mslice_step {x : TM} {y : MView} (h : AgM x y) (a b c d e f g k : Int) (good : Prop)
    (hg : good → ((a = -1 ∨ a = e) ∧ (b = -1 ∨ b = f) ∧ (c = -1 ∨ c = g) ∧ (d = -1 ∨ d = k)) ∧
      (x.Rows ≠ 0 ∧ x.Cols ≠ 0) ∧ c ≠ 0 ∧ d ≠ 0) :
    Step ((x.slice a b c d e f g k).map .m)
      ((y.slice (sel a e) (sel b f) (sel c g) (sel d k)).bind fun z => .ok (.m z)) good := by
  unfold TM.slice MView.slice
  have bad1 : good → check x.Rows a c x.numRows e g ≠ .ok → sliceOk y.rows (sel a e) (sel c g) ≠ true := by
    intro hgood hne
    obtain ⟨⟨g1, g2, g3, g4⟩, ⟨g5, g6⟩, -⟩ := hg hgood
    have := check_not_ok hne (pick_holder h.rtag) g1 g3 (by have := h.rtag; omega)
    rw [Ne, sliceOk_iff, ← h.rows]; exact this
  have bad2 : good → check x.Cols b d x.numCols f k ≠ .ok → sliceOk y.cols (sel b f) (sel d k) ≠ true := by
    intro hgood hne
    obtain ⟨⟨g1, g2, g3, g4⟩, ⟨g5, g6⟩, -⟩ := hg hgood
    have := check_not_ok hne (pick_holder h.ctag) g2 g4 (by have := h.ctag; omega)
    rw [Ne, sliceOk_iff, ← h.cols]; exact this
  have two : ∀ p q : Bool, ∀ z : MView, q ≠ true →
      (if p = true then (if q = true then Outcome.ok z else .abort) else .abort) = .abort := by
    intro p q z hq; cases p <;> cases q <;> simp_all
  cases hc : check x.Rows a c x.numRows e g with
  | ok =>
    cases hd : check x.Cols b d x.numCols f k with
    | ok =>
      obtain ⟨h1, h2, h3⟩ := mslice_ag h hc hd
      rw [if_pos h1, if_pos h2]
      exact ⟨_, rfl, h3, trivial, fun g => (hg g).2.2⟩
    | compileError => intro g; rw [two _ _ _ (bad2 g (by rw [hd]; decide))]; rfl
    | abort => intro g; rw [two _ _ _ (bad2 g (by rw [hd]; decide))]; rfl
  | compileError => intro g; rw [if_neg (bad1 g (by rw [hc]; decide))]; rfl
  | abort => intro g; rw [if_neg (bad1 g (by rw [hc]; decide))]; rfl

theorem checkStatic_res (Size S L : Int) : checkStatic Size S L .ok = .ok ∨ checkStatic Size S L .ok = .compileError := by
  unfold checkStatic badSlice; split_ifs <;> simp

theorem checkStatic_ok {Size S L : Int} (h : checkStatic Size S L .ok = .ok) : 0 ≤ S ∧ 0 ≤ L := by
  unfold checkStatic badSlice at h
  split_ifs at h with h1
  simp at h1
  omega

theorem checkStatic_not_ok {Size S L n : Int} (h : checkStatic Size S L .ok ≠ .ok)
    (hn : n = pick Size n) (hz : Size = -1 ∨ Size = -0x7fffffff ∨ 0 < Size) : ¬ (0 ≤ S ∧ 0 ≤ L ∧ S + L ≤ n) := by
  intro hh
  apply h
  unfold pick at hn
  unfold checkStatic badSlice
  rw [if_neg]
  simp [Checks.Dynamic, Resizable] at *
  split_ifs at hn <;> omega

theorem sel_self (S : Int) : sel S S = S := by unfold sel; split_ifs <;> rfl

theorem apply_step {x : TAny} {y : AnyView} (h : Ag x y) (op : TOp) (hR : ¬ NotRes x → ¬ op.whole) :
    Step (x.apply op) (y.apply op.plain) (op.consistent ∧ op.noZero ∧ NZ x) := by
  match x, y, h with
  | .v x, .v y, h =>
    cases op with
    | slice S L s l =>
      exact slice_step h S L s l _ fun g => ⟨g.1.1, g.1.2, g.2.2, g.2.1⟩
    | sliceS S L =>
      show Step ((x.sliceS S L).map .v) ((y.slice S L).bind fun z => .ok (.v z)) _
      unfold TV.sliceS
      rcases checkStatic_res x.Size S L with hc | hc
      · rw [hc]
        have := slice_step h S L S L (TOp.consistent (.sliceS S L) ∧ TOp.noZero (.sliceS S L) ∧ NZ (.v x))
          fun g => ⟨.inr rfl, .inr rfl, g.2.2, g.2.1⟩
        rw [sel_self, sel_self] at this
        exact this
      · rw [hc]
        intro g
        have := checkStatic_not_ok (by rw [hc]; decide) (pick_size h)
          (by have := h.tag; have : x.Size ≠ 0 := g.2.2; omega)
        rw [VView.slice, if_neg (by rw [sliceOk_iff, ← h.size]; exact this)]
        rfl
    | asRow =>
      have hx : x.Size ≠ -0x7fffffff := fun e => hR (fun hn => hn e) trivial
      exact ⟨_, rfl, asRow_ag h hx, trivial, fun g => ⟨(by decide : (1:Int) ≠ 0), g.2.2⟩⟩
    | asCol =>
      have hx : x.Size ≠ -0x7fffffff := fun e => hR (fun hn => hn e) trivial
      exact ⟨_, rfl, asCol_ag h hx, trivial, fun g => ⟨g.2.2, (by decide : (1:Int) ≠ 0)⟩⟩
    | asSlice =>
      have hx : x.Size ≠ -0x7fffffff := fun e => hR (fun hn => hn e) trivial
      exact ⟨_, rfl, asSlice_ag h hx, hx, fun g => g.2.2⟩
    | row r => intro _; rfl
    | mslice a b c d e f g k => intro _; rfl
    | msliceS a b c d => intro _; rfl
    | T => intro _; rfl
    | diag => intro _; rfl
  | .m x, .m y, h =>
    cases op with
    | slice S L s l => intro _; rfl
    | sliceS S L => intro _; rfl
    | asRow => intro _; rfl
    | asCol => intro _; rfl
    | asSlice => intro _; rfl
    | row r =>
      show Step ((x.row r).map .v) ((y.row r).bind fun z => .ok (.v z)) _
      unfold TM.row MView.row
      rw [h.rows]
      by_cases hr : 0 ≤ r ∧ r < (y.rows : Int)
      · rw [if_pos hr, if_pos hr]
        refine ⟨_, rfl, row_ag h r hr.1, ?_, fun g => g.2.2.2⟩
        show x.Cols ≠ _
        have := h.ctag; omega
      · rw [if_neg hr, if_neg hr]; intro _; rfl
    | mslice a b c d e f g k =>
      exact mslice_step h a b c d e f g k _ fun g => ⟨g.1, g.2.2, g.2.1⟩
    | msliceS a b c d =>
      show Step ((x.sliceS a b c d).map .m) ((y.slice a b c d).bind fun z => .ok (.m z)) _
      unfold TM.sliceS
      rcases checkStatic_res x.Rows a c with hc | hc
      · rcases checkStatic_res x.Cols b d with hd | hd
        · rw [hc, hd]
          have := mslice_step h a b c d a b c d
            (TOp.consistent (.msliceS a b c d) ∧ TOp.noZero (.msliceS a b c d) ∧ NZ (.m x))
            fun g => ⟨⟨.inr rfl, .inr rfl, .inr rfl, .inr rfl⟩, g.2.2, g.2.1⟩
          rw [sel_self, sel_self, sel_self, sel_self] at this
          exact this
        · rw [hc, hd]
          intro g
          have := checkStatic_not_ok (n := x.numCols) (by rw [hd]; decide) (pick_holder h.ctag)
            (by have := h.ctag; have : x.Cols ≠ 0 := g.2.2.2; omega)
          rw [MView.slice]
          have hb : ¬ sliceOk y.cols b d = true := by rw [sliceOk_iff, ← h.cols]; exact this
          split_ifs <;> rfl
      · rw [hc]
        intro g
        have := checkStatic_not_ok (n := x.numRows) (by rw [hc]; decide) (pick_holder h.rtag)
          (by have := h.rtag; have : x.Rows ≠ 0 := g.2.2.1; omega)
        rw [MView.slice, if_neg (by rw [sliceOk_iff, ← h.rows]; exact this)]
        rfl
    | T => exact ⟨_, rfl, T_ag h, trivial, fun g => ⟨g.2.2.2, g.2.2.1⟩⟩
    | diag =>
      refine ⟨_, rfl, diag_ag h, ?_, fun g => ?_⟩
      · show diagSize x.Rows x.Cols ≠ _
        have := h.rtag; have := h.ctag
        unfold diagSize Checks.Dynamic; split_ifs <;> omega
      · show diagSize x.Rows x.Cols ≠ 0
        have g1 : x.Rows ≠ 0 := g.2.2.1
        have g2 : x.Cols ≠ 0 := g.2.2.2
        unfold diagSize Checks.Dynamic; split_ifs <;> omega

theorem owner_ag (o : TOwner) (ho : o.valid) : Ag o.view o.plain.view := by
  cases o with
  | vec Size n =>
    have hv : okSize Size n ∨ (Size = -0x7fffffff ∧ 0 ≤ n) := ho
    unfold okSize at hv
    refine ⟨rfl, ?_, rfl, ?_, .inr (show (0:Int) ≤ 1 by decide)⟩
    · show (if Size = Checks.Dynamic then n else if Size = Resizable ∧ true = true then n else Size) = _
      show _ = (((if Size = -1 ∨ Size = -0x7fffffff then n else Size).toNat : Nat) : Int)
      unfold Checks.Dynamic Resizable
      simp only [and_true]
      split_ifs <;> omega
    · show 0 ≤ Size ∨ Size = -1 ∨ (Size = -0x7fffffff ∧ true = true)
      simp only [and_true]
      omega
  | rowMajor R C r c =>
    have hv : okSize R r ∧ okSize C c := ho
    unfold okSize at hv
    have e1 : sizeHolder R r = (((if R = -1 then r else R).toNat : Nat) : Int) := by
      unfold sizeHolder; split_ifs <;> omega
    have e2 : sizeHolder C c = (((if C = -1 then c else C).toNat : Nat) : Int) := by
      unfold sizeHolder; split_ifs <;> omega
    refine ⟨rfl, e1, e2, ?_, rfl, ?_, ?_, ?_, .inr (.inr (show (0:Int) ≤ 1 by decide))⟩
    · show (if (if C = -1 then (-2:Int) else C) = -2 then sizeHolder C c else strideHolder (if C = -1 then -2 else C) 0) =
        (((if C = -1 then c else C).toNat : Nat) : Int)
      rw [← e2]
      unfold sizeHolder strideHolder; split_ifs <;> omega
    · show 0 ≤ R ∨ R = -1
      omega
    · show 0 ≤ C ∨ C = -1
      omega
    · show (if C = -1 then (-2:Int) else C) = -1 ∨ (if C = -1 then (-2:Int) else C) = -2 ∨ 0 ≤ (if C = -1 then (-2:Int) else C)
      split_ifs <;> omega
  | colMajor R C r c =>
    have hv : okSize R r ∧ okSize C c := ho
    unfold okSize at hv
    have e1 : sizeHolder R r = (((if R = -1 then r else R).toNat : Nat) : Int) := by
      unfold sizeHolder; split_ifs <;> omega
    have e2 : sizeHolder C c = (((if C = -1 then c else C).toNat : Nat) : Int) := by
      unfold sizeHolder; split_ifs <;> omega
    refine ⟨rfl, e1, e2, rfl, ?_, ?_, ?_, .inr (.inr (show (0:Int) ≤ 1 by decide)), ?_⟩
    · show (if (if R = -1 then (-2:Int) else R) = -2 then sizeHolder R r else strideHolder (if R = -1 then -2 else R) 0) =
        (((if R = -1 then r else R).toNat : Nat) : Int)
      rw [← e1]
      unfold sizeHolder strideHolder; split_ifs <;> omega
    · show 0 ≤ R ∨ R = -1
      omega
    · show 0 ≤ C ∨ C = -1
      omega
    · show (if R = -1 then (-2:Int) else R) = -1 ∨ (if R = -1 then (-2:Int) else R) = -2 ∨ 0 ≤ (if R = -1 then (-2:Int) else R)
      split_ifs <;> omega

theorem chain_ok (ops : List TOp) : ∀ (x : TAny) (y : AnyView), Ag x y →
    (¬ NotRes x → ∀ op ∈ ops.head?, ¬ op.whole) →
    ∀ x', x.chain ops = .ok x' → ∃ y', y.chain (ops.map TOp.plain) = .ok y' ∧ Ag x' y' := by
  induction ops with
  | nil => intro x y h _ x' hx; injection hx with hx; exact ⟨y, rfl, hx ▸ h⟩
  | cons op ops ih =>
    intro x y h hR x' hx
    have hs := apply_step h op fun hn => hR hn op (by simp)
    rw [TAny.chain] at hx
    cases ha : x.apply op with
    | ok x₁ =>
      rw [ha] at hs hx
      obtain ⟨y₁, e, h1, h2, -⟩ := hs
      obtain ⟨y', e', h'⟩ := ih x₁ y₁ h1 (fun hn => absurd h2 hn) x' hx
      refine ⟨y', ?_, h'⟩
      rw [List.map_cons, AnyView.chain, e]
      exact e'
    | compileError => rw [ha] at hx; nomatch hx
    | abort => rw [ha] at hx; nomatch hx
    | ub => rw [ha] at hx; nomatch hx

theorem chain_matches (ops : List TOp) : ∀ (x : TAny) (y : AnyView), Ag x y →
    (¬ NotRes x → ∀ op ∈ ops.head?, ¬ op.whole) → NZ x → (∀ op ∈ ops, op.consistent ∧ op.noZero) →
    Matches (x.chain ops) (y.chain (ops.map TOp.plain)) := by
  induction ops with
  | nil => intro x y h _ _ _; exact h.same
  | cons op ops ih =>
    intro x y h hR hz hc
    have hs := apply_step h op fun hn => hR hn op (by simp)
    have hg : op.consistent ∧ op.noZero ∧ NZ x := ⟨(hc op (by simp)).1, (hc op (by simp)).2, hz⟩
    rw [TAny.chain, List.map_cons, AnyView.chain]
    cases ha : x.apply op with
    | ok x₁ =>
      rw [ha] at hs
      obtain ⟨y₁, e, h1, h2, h3⟩ := hs
      rw [e]
      exact ih x₁ y₁ h1 (fun hn => absurd h2 hn) (h3 hg) fun q hq => hc q (by simp [hq])
    | compileError => rw [ha] at hs; rw [hs hg]; trivial
    | abort => rw [ha] at hs; rw [hs hg]; trivial
    | ub => rw [ha] at hs; rw [hs hg]; trivial

theorem resizable_iff (o : TOwner) : ¬ NotRes o.view → o.resizable := by
  cases o with
  | vec Size n => intro h; exact Classical.not_not.1 h
  | rowMajor => intro h; exact h trivial
  | colMajor => intro h; exact h trivial

/-- **C60** Whatever mixture of template and run-time sizes an object and the slices taken from it have: if the expression
is accepted, the resulting vector or matrix has the size of, and denotes the same elements as, the same chain of
operations on the plain object (so C01-C03 apply to it).  A `Resizable` vector must be sliced before it is viewed as a
row, a column or a whole slice (see `c60_resizable_wrong`). -/
theorem c60_types_agree_partial (o : TOwner) (ho : o.valid) (ops : List TOp)
    (hR : o.resizable → ∀ op ∈ ops.head?, ¬ op.whole) (x : TAny) (hx : o.view.chain ops = .ok x) :
    ∃ y, o.plain.view.chain (ops.map TOp.plain) = .ok y ∧ Same x y := by
  obtain ⟨y, h1, h2⟩ := chain_ok ops _ _ (owner_ag o ho) (fun hn => hR (resizable_iff o hn)) x hx
  exact ⟨y, h1, h2.same⟩

/-- **C60** When template and run-time arguments agree and no template size is zero, the typed expression is accepted exactly
when the plain one is; out-of-range slices abort or do not compile exactly when the plain one aborts. -/
theorem c60_same_outcome_partial (o : TOwner) (ho : o.valid) (ops : List TOp)
    (hR : o.resizable → ∀ op ∈ ops.head?, ¬ op.whole) (hz : o.noZero) (hc : ∀ op ∈ ops, op.consistent ∧ op.noZero) :
    Matches (o.view.chain ops) (o.plain.view.chain (ops.map TOp.plain)) := by
  refine chain_matches ops _ _ (owner_ag o ho) (fun hn => hR (resizable_iff o hn)) ?_ hc
  cases o with
  | vec Size n => exact hz
  | rowMajor R C r c => exact hz
  | colMajor R C r c => exact hz

/-- **C60** hence every element of every typed view lies inside the object's buffer -/
theorem c60_in_bounds_partial (o : TOwner) (ho : o.valid) (ops : List TOp)
    (hR : o.resizable → ∀ op ∈ ops.head?, ¬ op.whole) :
    (∀ v, o.view.chain ops = .ok (.v v) → ∀ i : Nat, (i : Int) < v.size → 0 ≤ v.addr i ∧ v.addr i < o.plain.cells) ∧
    (∀ m, o.view.chain ops = .ok (.m m) → ∀ r c : Nat, (r : Int) < m.numRows → (c : Int) < m.numCols →
      0 ≤ m.addr r c ∧ m.addr r c < o.plain.cells) := by
  constructor
  · intro v hv i hi
    obtain ⟨y, h1, h2⟩ := c60_types_agree_partial o ho ops hR _ hv
    match y, h2 with
    | .v y, h2 =>
      have hi' : i < y.len := by rw [h2.1] at hi; omega
      have := c02_in_bounds o.plain _ _ h1 (.i i) (y.addr i) (by simp [AnyView.addr?, hi'])
      rw [h2.2 i hi']; omega
  · intro m hm r c hr hc
    obtain ⟨y, h1, h2⟩ := c60_types_agree_partial o ho ops hR _ hm
    match y, h2 with
    | .m y, h2 =>
      have hr' : r < y.rows := by rw [h2.1] at hr; omega
      have hc' : c < y.cols := by rw [h2.2.1] at hc; omega
      have := c02_in_bounds o.plain _ _ h1 (.rc r c) (y.addr r c) (by simp [AnyView.addr?, hr', hc'])
      rw [h2.2.2 r c hr' hc']; omega

/-- **C60** wrapped row- and column-major buffers, named elements and planar complex vectors: element positions -/
theorem c60_wrapped (Size n : Int) (R C r c : Int) :
    (∀ v, (TOwner.vec Size n).view = .v v → ∀ i, v.addr i = i) ∧
    (∀ m, (TOwner.rowMajor R C r c).view = .m m → 0 ≤ C ∨ C = -1 →
      ∀ i j, m.addr i j = i * (if C = -1 then c else C) + j) ∧
    (∀ m, (TOwner.colMajor R C r c).view = .m m → 0 ≤ R ∨ R = -1 →
      ∀ i j, m.addr i j = i + j * (if R = -1 then r else R)) ∧
    (∀ {K : Type} (re im : Int → K) v, (TOwner.vec Size n).view = .v v → ∀ i, planarRead re im v i = (re i, im i)) := by
  refine ⟨?_, ?_, ?_, ?_⟩
  · intro v hv i; injection hv with hv; subst hv
    simp [TV.addr, TV.stride]
  · intro m hm hC i j; injection hm with hm; subst hm
    have : (TM.mk R C (if C = -1 then -2 else C) 1 0 r c 0 0).rowstride = if C = -1 then c else C := by
      show (if (if C = -1 then (-2:Int) else C) = -2 then sizeHolder C c else strideHolder (if C = -1 then -2 else C) 0) = _
      unfold sizeHolder strideHolder; split_ifs <;> omega
    rw [TM.addr, this]
    simp [TM.colstride, strideHolder]
  · intro m hm hC i j; injection hm with hm; subst hm
    have : (TM.mk R C 1 (if R = -1 then -2 else R) 0 r c 0 0).colstride = if R = -1 then r else R := by
      show (if (if R = -1 then (-2:Int) else R) = -2 then sizeHolder R r else strideHolder (if R = -1 then -2 else R) 0) = _
      unfold sizeHolder strideHolder; split_ifs <;> omega
    rw [TM.addr, this]
    simp [TM.rowstride, strideHolder]
  · intro K re im v hv i; injection hv with hv; subst hv
    simp [planarRead, TV.addr, TV.stride]

/-- **C60** fails for `Resizable` vectors viewed whole: `as_slice()` of a `Vector<Resizable>` of size `n` has size
`-0x7fffffff`, `as_row()` that many columns, `as_col()` that many rows. -/
theorem c60_resizable_wrong (n : Int) :
    (∀ v, (TOwner.vec Resizable n).view = .v v →
      v.size = n ∧ v.asSlice.size = -0x7fffffff ∧ v.asRow.numCols = -0x7fffffff ∧ v.asCol.numRows = -0x7fffffff) := by
  intro v hv; injection hv with hv; subst hv
  simp [TV.size, TV.asSlice, TV.asRow, TV.asCol, TM.numCols, TM.numRows, sizeHolder, Resizable, Checks.Dynamic]

/-- a chain mixing template and run-time sizes is accepted: the transpose of a `slice<1,0,2,Dynamic>` of a
`Matrix<Dynamic,4>` with five rows, its row 1, its `slice<0,2>()` -/
example : (TOwner.rowMajor (-1) 4 5 0).valid ∧ ∃ x, (TOwner.rowMajor (-1) 4 5 0).view.chain
    [.mslice 1 0 2 (-1) 1 0 2 3, .T, .row 1, .sliceS 0 2] = .ok (.v x) ∧ x.size = 2 ∧ x.addr 0 = 5 ∧ x.addr 1 = 9 := by
  refine ⟨⟨.inr ⟨rfl, by decide⟩, .inl (by decide)⟩, ⟨2, 4, false, 5, 2, 4⟩, ?_, ?_, ?_, ?_⟩ <;> decide

end TooN.Typed
