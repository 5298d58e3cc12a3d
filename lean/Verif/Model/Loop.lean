/-!
# Loop combinators

C++ `for` loops of the library are modelled by these folds.  They carry no TooN-specific content:
`forRange lo hi body s` runs `body lo, body (lo+1), …, body (hi-1)` in this order, which is what
`for(int i=lo; i<hi; i++) body` does (no iteration when `hi ≤ lo`).
-/
namespace TooN

/-- Possible results of a call in the real program. `abort` = the library calls `std::abort()`
(or the code does not compile because a static check fails); `ub` = undefined behaviour. -/
inductive Outcome (α : Type _) where
  | ok (a : α)
  | abort
  | ub
  deriving Repr, DecidableEq

namespace Outcome
def bind {α β} : Outcome α → (α → Outcome β) → Outcome β
  | ok a, f => f a
  | abort, _ => abort
  | ub, _ => ub
instance : Monad Outcome where
  pure := ok
  bind := bind
@[simp] theorem bind_ok {α β} (a : α) (f : α → Outcome β) : (ok a).bind f = f a := rfl
@[simp] theorem bind_abort {α β} (f : α → Outcome β) : (abort : Outcome α).bind f = abort := rfl
@[simp] theorem bind_ub {α β} (f : α → Outcome β) : (ub : Outcome α).bind f = ub := rfl
end Outcome

/-- `for(int i=0; i<n; i++) f i` -/
def forN {σ : Type _} : Nat → (Nat → σ → σ) → σ → σ
  | 0, _, s => s
  | n+1, f, s => f n (forN n f s)

/-- `for(int i=lo; i<hi; i++) f i` -/
def forRange {σ : Type _} (lo hi : Nat) (f : Nat → σ → σ) (s : σ) : σ :=
  forN (hi - lo) (fun k => f (lo + k)) s

/-- `for(int i=n-1; i>=0; i--) f i` -/
def forDown {σ : Type _} : Nat → (Nat → σ → σ) → σ → σ
  | 0, _, s => s
  | n+1, f, s => forDown n f (f n s)

/-- A loop whose body can stop the whole computation with an error/early exit (`none`). -/
def forNM {σ : Type _} : Nat → (Nat → σ → Option σ) → σ → Option σ
  | 0, _, s => some s
  | n+1, f, s => (forNM n f s).bind (f n)

/-- `for(int i=lo; i<hi; i++)` with error outcome. -/
def forRangeM {σ : Type _} (lo hi : Nat) (f : Nat → σ → Option σ) (s : σ) : Option σ :=
  forNM (hi - lo) (fun k => f (lo + k)) s

/-- `for(int i=n-1; i>=0; i--)` with error outcome. -/
def forDownM {σ : Type _} : Nat → (Nat → σ → Option σ) → σ → Option σ
  | 0, _, s => some s
  | n+1, f, s => (f n s).bind (forDownM n f)

/-- Values of vectors/matrices inside algorithms. -/
abbrev Vec (K : Type _) := Nat → K
abbrev Mat (K : Type _) := Nat → Nat → K

/-- `v[i] = x` -/
def Vec.set {K : Type _} (v : Vec K) (i : Nat) (x : K) : Vec K :=
  fun j => if j = i then x else v j

/-- `m(r,c) = x` -/
def Mat.set {K : Type _} (m : Mat K) (r c : Nat) (x : K) : Mat K :=
  fun i j => if i = r ∧ j = c then x else m i j

/-- transpose -/
def Mat.T {K : Type _} (m : Mat K) : Mat K := fun i j => m j i

section lemmas
variable {σ : Type _}

@[simp] theorem forN_zero (f : Nat → σ → σ) (s : σ) : forN 0 f s = s := rfl
@[simp] theorem forN_succ (n : Nat) (f : Nat → σ → σ) (s : σ) :
    forN (n+1) f s = f n (forN n f s) := rfl

theorem forN_inv (P : Nat → σ → Prop) (n : Nat) (f : Nat → σ → σ) (s : σ) (h0 : P 0 s)
    (step : ∀ i t, i < n → P i t → P (i+1) (f i t)) : P n (forN n f s) := by
  induction n with
  | zero => exact h0
  | succ n ih =>
    exact step n _ (Nat.lt_succ_self n)
      (ih (fun i t hi => step i t (Nat.lt_succ_of_lt hi)))

theorem forRange_inv (P : Nat → σ → Prop) (lo hi : Nat) (hle : lo ≤ hi) (f : Nat → σ → σ) (s : σ)
    (h0 : P lo s) (step : ∀ i t, lo ≤ i → i < hi → P i t → P (i+1) (f i t)) :
    P hi (forRange lo hi f s) := by
  have := forN_inv (fun k t => P (lo + k) t) (hi - lo) (fun k => f (lo + k)) s (by simpa using h0)
    (fun i t hi' hp => step (lo+i) t (Nat.le_add_right _ _) (by omega) hp)
  have e : lo + (hi - lo) = hi := by omega
  rw [e] at this
  exact this

theorem forRange_empty (lo hi : Nat) (h : hi ≤ lo) (f : Nat → σ → σ) (s : σ) :
    forRange lo hi f s = s := by
  have : hi - lo = 0 := by omega
  simp [forRange, this]

theorem forRange_succ (lo hi : Nat) (h : lo ≤ hi) (f : Nat → σ → σ) (s : σ) :
    forRange lo (hi+1) f s = f hi (forRange lo hi f s) := by
  have e : hi + 1 - lo = (hi - lo) + 1 := by omega
  have e2 : lo + (hi - lo) = hi := by omega
  simp [forRange, e, e2]

theorem forRange_zero (hi : Nat) (f : Nat → σ → σ) (s : σ) :
    forRange 0 hi f s = forN hi f s := by
  simp [forRange]

theorem forN_congr (n : Nat) (f g : Nat → σ → σ) (s : σ)
    (h : ∀ i t, i < n → f i t = g i t) : forN n f s = forN n g s := by
  induction n with
  | zero => rfl
  | succ n ih =>
    rw [forN_succ, forN_succ, ih (fun i t hi => h i t (Nat.lt_succ_of_lt hi)),
      h n _ (Nat.lt_succ_self n)]

theorem forRange_congr (lo hi : Nat) (f g : Nat → σ → σ) (s : σ)
    (h : ∀ i t, lo ≤ i → i < hi → f i t = g i t) : forRange lo hi f s = forRange lo hi g s := by
  unfold forRange
  exact forN_congr _ _ _ _ (fun i t hi' => h (lo+i) t (by omega) (by omega))

@[simp] theorem forDown_zero (f : Nat → σ → σ) (s : σ) : forDown 0 f s = s := rfl
@[simp] theorem forDown_succ (n : Nat) (f : Nat → σ → σ) (s : σ) :
    forDown (n+1) f s = forDown n f (f n s) := rfl

/-- Invariant rule for descending loops: `P i` holds when all indices `≥ i` are done. -/
theorem forDown_inv (P : Nat → σ → Prop) (n : Nat) (f : Nat → σ → σ) (s : σ) (h0 : P n s)
    (step : ∀ i t, i < n → P (i+1) t → P i (f i t)) : P 0 (forDown n f s) := by
  induction n generalizing s with
  | zero => exact h0
  | succ n ih =>
    exact ih (f n s) (step n s (Nat.lt_succ_self n) h0)
      (fun i t hi => step i t (Nat.lt_succ_of_lt hi))

@[simp] theorem forNM_zero (f : Nat → σ → Option σ) (s : σ) : forNM 0 f s = some s := rfl
@[simp] theorem forNM_succ (n : Nat) (f : Nat → σ → Option σ) (s : σ) :
    forNM (n+1) f s = (forNM n f s).bind (f n) := rfl

/-- Partial-correctness rule for loops with an error outcome. -/
theorem forNM_inv (P : Nat → σ → Prop) (n : Nat) (f : Nat → σ → Option σ) (s s' : σ) (h0 : P 0 s)
    (step : ∀ i t t', i < n → P i t → f i t = some t' → P (i+1) t')
    (h : forNM n f s = some s') : P n s' := by
  induction n generalizing s' with
  | zero => simp at h; exact h ▸ h0
  | succ n ih =>
    rw [forNM_succ] at h
    cases hq : forNM n f s with
    | none => simp [hq] at h
    | some t =>
      rw [hq] at h
      exact step n t s' (Nat.lt_succ_self n)
        (ih t (fun i t t' hi => step i t t' (Nat.lt_succ_of_lt hi)) hq) h

/-- Total-correctness rule. -/
theorem forNM_total (P : Nat → σ → Prop) (n : Nat) (f : Nat → σ → Option σ) (s : σ) (h0 : P 0 s)
    (step : ∀ i t, i < n → P i t → ∃ t', f i t = some t' ∧ P (i+1) t') :
    ∃ s', forNM n f s = some s' ∧ P n s' := by
  induction n with
  | zero => exact ⟨s, rfl, h0⟩
  | succ n ih =>
    obtain ⟨t, ht, hp⟩ := ih (fun i t hi => step i t (Nat.lt_succ_of_lt hi))
    obtain ⟨t', ht', hp'⟩ := step n t (Nat.lt_succ_self n) hp
    exact ⟨t', by simp [ht, ht'], hp'⟩

theorem forRangeM_total (P : Nat → σ → Prop) (lo hi : Nat) (hle : lo ≤ hi)
    (f : Nat → σ → Option σ) (s : σ) (h0 : P lo s)
    (step : ∀ i t, lo ≤ i → i < hi → P i t → ∃ t', f i t = some t' ∧ P (i+1) t') :
    ∃ s', forRangeM lo hi f s = some s' ∧ P hi s' := by
  have := forNM_total (fun k t => P (lo + k) t) (hi - lo) (fun k => f (lo + k)) s (by simpa using h0)
    (fun i t hi' hp => step (lo+i) t (Nat.le_add_right _ _) (by omega) hp)
  have e : lo + (hi - lo) = hi := by omega
  rw [e] at this
  exact this

theorem forRangeM_inv (P : Nat → σ → Prop) (lo hi : Nat) (hle : lo ≤ hi)
    (f : Nat → σ → Option σ) (s s' : σ) (h0 : P lo s)
    (step : ∀ i t t', lo ≤ i → i < hi → P i t → f i t = some t' → P (i+1) t')
    (h : forRangeM lo hi f s = some s') : P hi s' := by
  have := forNM_inv (fun k t => P (lo + k) t) (hi - lo) (fun k => f (lo + k)) s s' (by simpa using h0)
    (fun i t t' hi' hp => step (lo+i) t t' (Nat.le_add_right _ _) (by omega) hp) h
  have e : lo + (hi - lo) = hi := by omega
  rw [e] at this
  exact this

theorem forDownM_total (P : Nat → σ → Prop) (n : Nat) (f : Nat → σ → Option σ) (s : σ) (h0 : P n s)
    (step : ∀ i t, i < n → P (i+1) t → ∃ t', f i t = some t' ∧ P i t') :
    ∃ s', forDownM n f s = some s' ∧ P 0 s' := by
  induction n generalizing s with
  | zero => exact ⟨s, rfl, h0⟩
  | succ n ih =>
    obtain ⟨t, ht, hp⟩ := step n s (Nat.lt_succ_self n) h0
    obtain ⟨s', hs', hp'⟩ := ih t hp (fun i t hi => step i t (Nat.lt_succ_of_lt hi))
    exact ⟨s', by simp [forDownM, ht, hs'], hp'⟩

end lemmas

section sets
variable {K : Type _}
@[simp] theorem Vec.set_self (v : Vec K) (i : Nat) (x : K) : Vec.set v i x i = x := by
  simp [Vec.set]
theorem Vec.set_ne (v : Vec K) (i j : Nat) (x : K) (h : j ≠ i) : Vec.set v i x j = v j := by
  simp [Vec.set, h]
@[simp] theorem Mat.set_self (m : Mat K) (r c : Nat) (x : K) : Mat.set m r c x r c = x := by
  simp [Mat.set]
theorem Mat.set_ne (m : Mat K) (r c i j : Nat) (x : K) (h : ¬ (i = r ∧ j = c)) :
    Mat.set m r c x i j = m i j := by
  simp only [Mat.set, if_neg h]
end sets

end TooN
