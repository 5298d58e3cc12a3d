import Verif.Proof.Throw
set_option linter.unusedVariables false
/-!
# C75: objects after exceptions

Histories of constructions, copies, moves, assignments, swaps, writes and destructions in which any
allocation and any element copy may throw, at any point, with the exception caught by the caller.
-/
namespace TooN.Heap
variable {K : Type _}

/-- Every legal history, whatever throws in it: no undefined behaviour; each operation throws exactly
when the action its fuse points at is reached; the objects afterwards are those the value-level
specification says (a failed construction leaves everything as it was, a failed assignment has
replaced a prefix); no two objects share an array, every object keeps an array of its own size, and
the arrays that are lost are exactly as many as the specification counts.  (The full claim, that
none is ever lost, is false: `c75_copy_leak_wrong`.) -/
theorem c75_safe_partial (d : K) (ops : List (TOp K × Option Nat))
    (hl : LegalRunT d (fun _ => none) ops) :
    match specRunT d (fun _ => none) ops with
    | none => runT d St.empty ops = .abort
    | some (a, threw, n) => ∃ s lost, runT d St.empty ops = .ok (s, threw) ∧ s.abs = a ∧
        lost.length = n ∧ Tidy lost s := by
  have := run_meets d ops [] St.empty (invL_of_inv _ inv_empty) hl
  have e : (St.empty : St K).abs = fun _ => none := by funext x; simp [St.abs, St.empty]
  rw [e] at this
  revert this
  cases specRunT d (fun _ => none) ops with
  | none => exact id
  | some r =>
    obtain ⟨a, bs, n⟩ := r
    rintro ⟨t, L, h1, h2, h3, h4⟩
    exact ⟨t, L, h1, h2, by simpa using h3, tidy_of_invL h4⟩

theorem lost_zero (P : TOp K × Option Nat → Prop) (d : K)
    (hP : ∀ a op f r, P (op, f) → specT d a op f = some r → r.2.2 = 0)
    (ops : List (TOp K × Option Nat)) (h : ∀ o, o ∈ ops → P o) (a : ASt K)
    (r : ASt K × List Bool × Nat) (hr : specRunT d a ops = some r) : r.2.2 = 0 := by
  induction ops generalizing a r with
  | nil => cases hr; rfl
  | cons o ops ih =>
    obtain ⟨op, f⟩ := o
    simp only [specRunT] at hr
    cases h1 : specT d a op f with
    | none => rw [h1] at hr; cases hr
    | some r1 =>
      rw [h1] at hr
      simp only [Option.bind_some] at hr
      cases h2 : specRunT d r1.1 ops with
      | none => rw [h2] at hr; cases hr
      | some r2 =>
        rw [h2] at hr
        simp only [Option.bind_some, Option.some.injEq] at hr
        subst hr
        have e1 := hP a op f r1 (h _ (by simp)) h1
        have e2 := ih (fun o ho => h o (by simp [ho])) _ _ h2
        simp only at e1 e2 ⊢
        omega

/-- When only memory can run out (elements such as `float` and `double` never throw), nothing is
ever lost: live arrays are exactly those of the live objects. -/
theorem c75_memory (d : K) (ops : List (TOp K × Option Nat)) (hl : LegalRunT d (fun _ => none) ops)
    (hm : ∀ o, o ∈ ops → OnlyMemory o) (s : St K) (bs : List Bool)
    (hr : runT d St.empty ops = .ok (s, bs)) :
    Tidy [] s := by
  have := c75_safe_partial d ops hl
  cases hsp : specRunT d (fun _ => none) ops with
  | none => rw [hsp] at this; simp only at this; rw [hr] at this; cases this
  | some r =>
    have hz := lost_zero OnlyMemory d (by
      intro a op f r hP hs
      simp only [specT] at hs
      split at hs
      · cases hs
      · split at hs
        · rename_i k hk
          cases hs
          simp only [throws, Option.bind_eq_some_iff] at hk
          obtain ⟨k', rfl, hk⟩ := hk
          split at hk <;> cases hk
          cases op <;> simp_all [OnlyMemory, lostT]
        · cases hs; rfl) ops hm _ _ hsp
    obtain ⟨a, bs', n⟩ := r
    rw [hsp] at this
    obtain ⟨s', L, h1, h2, h3, h4⟩ := this
    rw [hr] at h1; cases h1
    simp only at hz
    have : L = [] := List.length_eq_zero_iff.1 (h3.trans hz)
    rw [this] at h4; exact h4

/-- Whatever throws, a history without copy constructors loses nothing: construction from a size, a
list, an expression or an object of another type, and all assignments clean up after themselves. -/
theorem c75_no_copy (d : K) (ops : List (TOp K × Option Nat)) (hl : LegalRunT d (fun _ => none) ops)
    (hm : ∀ o, o ∈ ops → NoCopy o) (s : St K) (bs : List Bool)
    (hr : runT d St.empty ops = .ok (s, bs)) :
    Tidy [] s := by
  have := c75_safe_partial d ops hl
  cases hsp : specRunT d (fun _ => none) ops with
  | none => rw [hsp] at this; simp only at this; rw [hr] at this; cases this
  | some r =>
    have hz := lost_zero NoCopy d (by
      intro a op f r hP hs
      simp only [specT] at hs
      split at hs
      · cases hs
      · split at hs
        · cases hs
          cases op <;> simp_all [NoCopy, lostT]
        · cases hs; rfl) ops hm _ _ hsp
    obtain ⟨a, bs', n⟩ := r
    rw [hsp] at this
    obtain ⟨s', L, h1, h2, h3, h4⟩ := this
    rw [hr] at h1; cases h1
    simp only at hz
    have : L = [] := List.length_eq_zero_iff.1 (h3.trans hz)
    rw [this] at h4; exact h4

/-- Never undefined behaviour (no double delete, no access to a dead array), whatever throws. -/
theorem c75_no_ub (d : K) (ops : List (TOp K × Option Nat)) (hl : LegalRunT d (fun _ => none) ops) :
    runT d St.empty ops ≠ .ub := by
  have := c75_safe_partial d ops hl
  revert this
  cases specRunT d (fun _ => none) ops with
  | none => intro h; simp only at h; rw [h]; simp
  | some r =>
    obtain ⟨a, bs, n⟩ := r
    rintro ⟨s, L, h1, _⟩
    rw [h1]; simp

/-- The history of the next two theorems: a dynamic vector of two elements, a copy of it whose second
element throws, destruction of everything. -/
def leaky : List (TOp Nat × Option Nat) :=
  [(.fillCtor 0 .dynVec [7, 8], none), (.copy 1 0, some 2), (.destroy 0, none)]

theorem leaky_legal : LegalRunT 0 (fun _ => none) leaky := by
  refine ⟨rfl, ?_⟩
  rintro r hr; cases hr
  refine ⟨⟨by simp [doneT, upd], ⟨.dynVec, 2, some [7, 8]⟩, [7, 8], by simp [doneT, upd], rfl⟩, ?_⟩
  rintro r hr
  simp [specT, mismatch, throws, actions, sz, doneT, upd, thrownT] at hr
  subst hr
  refine ⟨⟨⟨.dynVec, 2, some [7, 8]⟩, by simp⟩, ?_⟩
  rintro r hr
  trivial

/-- Copying a vector loses the new array when copying an element throws: here no object is left, and
an array is still allocated, for ever. -/
theorem c75_copy_leak_wrong : ∃ s : St Nat, runT 0 St.empty leaky = .ok (s, [false, true, false]) ∧
    (∀ x, s.objs x = none) ∧ s.bufs 1 = some [7, 0] := by
  refine ⟨_, rfl, ?_, rfl⟩
  intro x
  simp [St.setObj, St.alloc, upd, St.empty]

/-- A swap that is interrupted loses an element: `swap` of two large static vectors `[1]` and `[2]`
leaves `[2]` in both. -/
theorem c75_swap_wrong : ∃ s : St Nat, runT 0 St.empty
    [(.fillCtor 0 .bigStatic [1], none), (.fillCtor 1 .bigStatic [2], none), (.swap 0 1, some 2)] =
      .ok (s, [false, false, true]) ∧
    s.abs 0 = some ⟨.bigStatic, 1, some [2]⟩ ∧ s.abs 1 = some ⟨.bigStatic, 1, some [2]⟩ :=
  ⟨_, rfl, rfl, rfl⟩

/-- A non-trivial history that meets the hypotheses, with faults in a constructor, an assignment and a
swap of matrices. -/
example : ∃ (s : St Nat) (lost : List Nat), runT 0 St.empty
    [(.fillCtor 0 .dynMat [1, 2, 3], none), (.fillCtor 1 .dynMat [4, 5, 6], some 2),
     (.construct 1 .dynMat 3, some 0), (.convCtor 1 .dynMat 0 0, none), (.fill 1 [4, 5, 6], some 1),
     (.swapMat 0 1, some 5), (.swapMat 0 1, some 2)] = .ok (s, [false, true, true, false, true, true, true]) ∧
    s.abs 0 = some ⟨.dynMat, 3, some [4, 2, 3]⟩ ∧ s.abs 1 = some ⟨.dynMat, 3, some [4, 2, 3]⟩ ∧
    Tidy lost s ∧ lost.length = 1 := by
  have := c75_safe_partial 0
    [(.fillCtor 0 .dynMat [1, 2, 3], none), (.fillCtor 1 .dynMat [4, 5, 6], some 2),
     (.construct 1 .dynMat 3, some 0), (.convCtor 1 .dynMat 0 0, none), (.fill 1 [4, 5, 6], some 1),
     (.swapMat 0 1, some 5), (.swapMat 0 1, some 2)] (by
    refine ⟨rfl, ?_⟩
    rintro r hr; cases hr
    refine ⟨rfl, ?_⟩
    rintro r hr; cases hr
    refine ⟨rfl, ?_⟩
    rintro r hr; cases hr
    refine ⟨⟨rfl, _, _, rfl, rfl⟩, ?_⟩
    rintro r hr; cases hr
    refine ⟨⟨_, _, rfl, rfl⟩, ?_⟩
    rintro r hr; cases hr
    refine ⟨⟨_, _, _, _, rfl, rfl, rfl, rfl, rfl⟩, ?_⟩
    rintro r hr; cases hr
    refine ⟨⟨_, _, _, _, rfl, rfl, rfl, rfl, rfl⟩, ?_⟩
    rintro r hr; trivial)
  obtain ⟨s, L, h1, h2, h3, h4⟩ := this
  refine ⟨s, L, h1, ?_, ?_, h4, h3⟩
  · rw [h2]; rfl
  · rw [h2]; rfl

end TooN.Heap
