import Verif.Model.Checks
import Mathlib.Tactic.Common
/-!
# C04, C05: slice and size checks
-/
namespace TooN.Checks

/-- A legal size template parameter: `Dynamic`, `Resizable` or a positive static size. -/
def LegalSize (Size : Int) : Prop := Size = Dynamic ∨ Size = Resizable ∨ Size > 0

/-- The run-time size agrees with the static one when there is a static one. -/
def SizeAgrees (Size size : Int) : Prop := Size = Dynamic ∨ Size = Resizable ∨ size = Size

/-- The English claim: a slice is in range. -/
def InRange (size start length : Int) : Prop := 0 ≤ start ∧ 0 ≤ length ∧ start + length ≤ size

/-- **C04** `v.slice(start,length)` is accepted iff the range lies inside the vector; otherwise the
program aborts (it always compiles). -/
theorem c04_dynamic_slice (Size size start length : Int) (hS : LegalSize Size)
    (hA : SizeAgrees Size size) :
    sliceDyn Size size start length = if 0 ≤ start ∧ 0 ≤ length ∧ start + length ≤ size
      then .ok else .abort := by
  unfold LegalSize at hS
  unfold SizeAgrees at hA
  simp only [sliceDyn, check, badSlice, pick, Dynamic, Resizable] at *
  by_cases h1 : Size = -1
  · subst h1; simp; split <;> rename_i h <;> first | rw [if_neg (by omega)] | rw [if_pos (by omega)]
  by_cases h2 : Size = -2147483647
  · subst h2; simp; split <;> rename_i h <;> first | rw [if_neg (by omega)] | rw [if_pos (by omega)]
  have h3 : Size > 0 := by omega
  have h4 : size = Size := by omega
  subst h4
  simp [h1, h2, h3]
  split <;> rename_i h <;> first | rw [if_neg (by omega)] | rw [if_pos (by omega)]

example : LegalSize 5 ∧ SizeAgrees 5 5 ∧ sliceDyn 5 5 2 3 = .ok ∧ sliceDyn 5 5 3 3 = .abort := by
  refine ⟨by unfold LegalSize; omega, by unfold SizeAgrees; omega, by decide, by decide⟩

/-- **C04** `v.slice<Start,Length>()` is accepted iff the range lies inside the vector. If the
vector has a static size and the range is outside, the program does not compile. -/
theorem c04_static_slice (Size size Start Length : Int) (hS : LegalSize Size)
    (hA : SizeAgrees Size size) :
    (sliceStatic Size size Start Length = .ok ↔ InRange size Start Length) ∧
    (Size > 0 → ¬ InRange size Start Length → sliceStatic Size size Start Length = .compileError) := by
  unfold LegalSize at hS
  unfold SizeAgrees at hA
  unfold InRange
  simp only [sliceStatic, checkStatic, check, badSlice, pick, Dynamic, Resizable] at *
  by_cases hs : 0 ≤ Start
  swap
  · constructor
    · constructor
      · intro h; simp [hs] at h
      · intro h; omega
    · intro _ _; simp [hs]
  by_cases hl : 0 ≤ Length
  swap
  · constructor
    · constructor
      · intro h; simp [hl] at h
      · intro h; omega
    · intro _ _; simp [hl]
  have a1 : Start ≠ -1 := by omega
  have a2 : Length ≠ -1 := by omega
  have a3 : Start ≠ -2147483647 := by omega
  have a4 : Length ≠ -2147483647 := by omega
  by_cases h1 : Size = -1
  · subst h1; simp [hs, hl, a1, a2, a3, a4]
  by_cases h2 : Size = -2147483647
  · subst h2; simp [hs, hl, a1, a2, a3, a4]
  have h3 : Size > 0 := by omega
  have h4 : size = Size := by omega
  subst h4
  by_cases h5 : Start + Length ≤ size
  · have : ¬ size < Start + Length := by omega
    have b1 : ¬ size < Start := by omega
    have b2 : ¬ size < Length := by omega
    have b3 : ¬ Start < 0 := by omega
    have b4 : ¬ Length < 0 := by omega
    simp [hs, hl, a1, a2, a3, a4, h1, h2, h3, h5, this, b1, b2, b3, b4]
  · have : size < Start + Length := by omega
    simp [hs, hl, h1, h2, h3, h5, this]

example : sliceStatic 5 5 2 3 = .ok ∧ sliceStatic 5 5 2 4 = .compileError ∧
    sliceStatic (-1) 5 2 4 = .abort := by decide

/-- **C04** mixed static/run-time calls `v.slice<Start,Length>(start,length)`: whenever the call is
accepted the slice actually taken (static values win) is in range. -/
theorem c04_mixed_slice (Size Start Length size start length : Int) (hA : SizeAgrees Size size)
    (hs : Start ≠ Resizable) (hl : Length ≠ Resizable)
    (h : check Size Start Length size start length = .ok) :
    InRange size (if Start = Dynamic then start else Start)
      (if Length = Dynamic then length else Length) := by
  unfold SizeAgrees at hA
  unfold InRange
  simp only [check, badSlice] at h
  split at h
  · cases h
  split at h
  · cases h
  split at h
  · cases h
  split at h
  · cases h
  split at h
  · cases h
  rename_i h5
  simp only [pick, hs, hl, or_false, Bool.or_eq_true, decide_eq_true_eq, not_or] at h5
  have e : (if Size = Dynamic ∨ Size = Resizable then size else Size) = size := by
    rcases hA with hA | hA | hA
    · rw [if_pos (Or.inl hA)]
    · rw [if_pos (Or.inr hA)]
    · subst hA; simp
  rw [e] at h5
  omega

example : check (-1) 2 (-1) 10 2 8 = .ok := by decide

/-- **C04** In 32-bit `int` arithmetic the run-time check is faithful exactly when
`start + length` does not overflow. -/
theorem c04_int_overflow (size start length : Int)
    (hs : 0 ≤ size ∧ size ≤ intMax) (hst : intMin ≤ start ∧ start ≤ intMax)
    (hl : intMin ≤ length ∧ length ≤ intMax) :
    (sliceDynWrapped size start length = .ok ∧ ¬ InRange size start length) ↔
      (0 ≤ start ∧ 0 ≤ length ∧ intMax < start + length) := by
  simp only [InRange, intMax, intMin] at *
  have hw : sliceDynWrapped size start length = .ok ↔
      ¬ (wrap32 (start + length) > size) ∧ ¬ start < 0 ∧ ¬ length < 0 := by
    unfold sliceDynWrapped
    split
    · rename_i h; simp at h ⊢; omega
    · rename_i h; simp at h ⊢; omega
  rw [hw]
  unfold wrap32
  omega

/-- Such arguments exist: a 10-element vector "accepts" a 1-element slice at 2^31-1. -/
example : sliceDynWrapped 10 intMax 1 = .ok ∧ ¬ InRange 10 intMax 1 := by
  refine ⟨by decide, by unfold InRange intMax; omega⟩

/-- **C05** The size check lets the program continue exactly when the run-time sizes of the two
operands agree, for every mixture of static, Dynamic and Resizable operands; a mismatch is a
compile error iff both sizes are static, and an abort otherwise. -/
theorem c05_size_mismatch (S1 S2 n1 n2 : Int) (h1 : LegalSize S1) (h2 : LegalSize S2) :
    sizeMismatch S1 S2 (runtimeSize S1 n1) (runtimeSize S2 n2) =
      if runtimeSize S1 n1 = runtimeSize S2 n2 then .ok
      else if S1 > 0 ∧ S2 > 0 then .compileError else .abort := by
  unfold LegalSize at h1 h2
  simp only [sizeMismatch, sizeMismatch_, runtimeSize, isStatic, Dynamic, Resizable] at *
  by_cases a1 : S1 = -1 ∨ S1 = -2147483647 <;> by_cases a2 : S2 = -1 ∨ S2 = -2147483647
  · have b1 : ¬ S1 > 0 := by omega
    have c1 : (S1 != -1 && S1 != -2147483647) = false := by rcases a1 with h | h <;> simp [h]
    have c2 : (S2 != -1 && S2 != -2147483647) = false := by rcases a2 with h | h <;> simp [h]
    simp only [a1, a2, b1, c1, c2]
    by_cases e : n1 = n2 <;> simp [e]
  · have b1 : ¬ S1 > 0 := by omega
    have c1 : (S1 != -1 && S1 != -2147483647) = false := by rcases a1 with h | h <;> simp [h]
    have c2 : (S2 != -1 && S2 != -2147483647) = true := by simp; omega
    have d : S2 ≠ -1 := by omega
    have d' : (-1 : Int) ≠ S2 := by omega
    simp only [a1, a2, b1, c1, c2]
    by_cases e : n1 = S2 <;> simp [e, d, d']
  · have b1 : ¬ S2 > 0 := by omega
    have c1 : (S1 != -1 && S1 != -2147483647) = true := by simp; omega
    have c2 : (S2 != -1 && S2 != -2147483647) = false := by rcases a2 with h | h <;> simp [h]
    have d : S1 ≠ -1 := by omega
    simp only [a1, a2, b1, c1, c2]
    by_cases e : S1 = n2 <;> simp [e, d]
  · have b1 : S1 > 0 := by omega
    have b2 : S2 > 0 := by omega
    have c1 : (S1 != -1 && S1 != -2147483647) = true := by simp; omega
    have c2 : (S2 != -1 && S2 != -2147483647) = true := by simp; omega
    have d : S1 ≠ -1 := by omega
    have d2 : S2 ≠ -1 := by omega
    simp only [a1, a2, b1, b2, c1, c2]
    by_cases e : S1 = S2 <;> simp [e, d, d2]

example : sizeMismatch 3 Dynamic (runtimeSize 3 0) (runtimeSize Dynamic 3) = .ok ∧
    sizeMismatch Resizable Dynamic 4 3 = .abort ∧ sizeMismatch 3 4 3 4 = .compileError := by decide

/-- **C05** The result of a binary operation that passed the check has the operands' run-time
size, is statically sized if either operand is, and is never Resizable. -/
theorem c05_result_size (S1 S2 n1 n2 : Int) (h1 : LegalSize S1) (h2 : LegalSize S2)
    (hok : sizeMismatch S1 S2 (runtimeSize S1 n1) (runtimeSize S2 n2) = .ok) :
    runtimeSize (sizer S1 S2) (runtimeSize S1 n1) = runtimeSize S1 n1 ∧
    runtimeSize (sizer S1 S2) (runtimeSize S1 n1) = runtimeSize S2 n2 ∧
    sizer S1 S2 ≠ Resizable ∧ (S1 > 0 ∨ S2 > 0 → sizer S1 S2 > 0) := by
  rw [c05_size_mismatch S1 S2 n1 n2 h1 h2] at hok
  have he : runtimeSize S1 n1 = runtimeSize S2 n2 := by
    by_contra hc
    rw [if_neg hc] at hok
    split at hok <;> cases hok
  unfold LegalSize at h1 h2
  simp only [runtimeSize, isStatic, sizer, sizer1, simpleSizer, Dynamic, Resizable] at *
  by_cases a1 : S1 = -1 ∨ S1 = -2147483647 <;> by_cases a2 : S2 = -1 ∨ S2 = -2147483647
  · have c1 : (S1 != -1 && S1 != -2147483647) = false := by rcases a1 with h | h <;> simp [h]
    have c2 : (S2 != -1 && S2 != -2147483647) = false := by rcases a2 with h | h <;> simp [h]
    simp [c1, c2] at he ⊢
    exact ⟨he, by omega⟩
  · have c1 : (S1 != -1 && S1 != -2147483647) = false := by rcases a1 with h | h <;> simp [h]
    have c2 : (S2 != -1 && S2 != -2147483647) = true := by simp; omega
    have d : S2 ≠ -1 := by omega
    have d' : S2 ≠ -2147483647 := by omega
    have d3 : S1 ≠ S2 := by omega
    simp [c1, c2, d, d', d3] at he ⊢
    subst he; simp; omega
  · have c1 : (S1 != -1 && S1 != -2147483647) = true := by simp; omega
    have c2 : (S2 != -1 && S2 != -2147483647) = false := by rcases a2 with h | h <;> simp [h]
    have d : S1 ≠ -1 := by omega
    have d' : S1 ≠ -2147483647 := by omega
    have d3 : S1 ≠ S2 := by omega
    simp [c1, c2, d, d', d3] at he ⊢
    subst he; simp; omega
  · have c1 : (S1 != -1 && S1 != -2147483647) = true := by simp; omega
    have c2 : (S2 != -1 && S2 != -2147483647) = true := by simp; omega
    have d : S1 ≠ -1 := by omega
    have d' : S1 ≠ -2147483647 := by omega
    simp [c1, c2] at he
    subst he
    simp [d, d']

example : sizer 3 Dynamic = 3 ∧ sizer Resizable Resizable = Dynamic ∧ sizer Dynamic 4 = 4 := by
  decide

end TooN.Checks
