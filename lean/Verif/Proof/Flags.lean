import Verif.Spec.Flags
import Verif.Spec.Param
/-!
# Numbers without flags are those of the standard model
-/
set_option linter.unusedSectionVars false
namespace TooN.Special
open TooN.Ops TooN.Elim
open scoped Classical
variable {G : Grid} {und : ℝ → Prop} {ρ : Rounding}

theorem fin_of {x : XF G} (h : ¬ NonFin x) : ∃ v h, x = .fin v h := by
  cases x with
  | fin v hv => exact ⟨v, hv, rfl⟩
  | pinf => exact (h nonFin_pinf).elim
  | ninf => exact (h nonFin_ninf).elim
  | nan => exact (h nonFin_nan).elim

theorem not_nonFin_fin (v : ℝ) (h) : ¬ NonFin (.fin v h : XF G) := fun hh => hh v h rfl

theorem ofReal_fin {z : ℝ} (h : ¬ NonFin (XF.ofReal G z)) : ∃ h, XF.ofReal G z = .fin (G.rnd z) h := by
  unfold XF.ofReal at h ⊢
  split_ifs at h ⊢ with h1 h2
  · exact ⟨⟨G.idem z, abs_le.2 ⟨h1.2, h1.1⟩⟩, rfl⟩
  · exact (h nonFin_pinf).elim
  · exact (h nonFin_ninf).elim

/-- a number without flags is the number of the standard model -/
def Same (i : FX G und) (f : Fl ρ) : Prop := i.ok → ∃ h, i.val = .fin f.val h

variable (hA : Agree G und ρ)
include hA

theorem same_add {a b : FX G und} {a' b' : Fl ρ} (h1 : Same a a') (h2 : Same b b') : Same (a + b) (a' + b') := by
  rintro ⟨ha, hb, h⟩
  obtain ⟨hx, ex⟩ := h1 ha
  obtain ⟨hy, ey⟩ := h2 hb
  have e : (a + b).val = XF.ofReal G (a'.val + b'.val) := by
    change a.val + b.val = _
    rw [ex, ey]; rfl
  change ¬ NonFin (a + b).val at h
  rw [e] at h ⊢
  obtain ⟨hh, e2⟩ := ofReal_fin h
  have hr := hA.add hx.1 hy.1
  rw [e2]
  exact ⟨by rw [Fl.val_add, ← hr]; exact hh, by congr 1⟩

theorem same_neg {a : FX G und} {a' : Fl ρ} (h1 : Same a a') : Same (-a) (-a') := by
  intro ha
  obtain ⟨hx, ex⟩ := h1 ha
  change ∃ _, -a.val = _
  rw [ex]
  exact ⟨_, rfl⟩

theorem same_sub {a b : FX G und} {a' b' : Fl ρ} (h1 : Same a a') (h2 : Same b b') : Same (a - b) (a' - b') := by
  rintro ⟨ha, hb, h⟩
  obtain ⟨hx, ex⟩ := h1 ha
  obtain ⟨hy, ey⟩ := h2 hb
  have e : (a - b).val = XF.ofReal G (a'.val - b'.val) := by
    change a.val - b.val = _
    rw [ex, ey, sub_eq_add_neg]; rfl
  change ¬ NonFin (a - b).val at h
  rw [e] at h ⊢
  obtain ⟨hh, e2⟩ := ofReal_fin h
  have hr := hA.add hx.1 (show G.rnd (-b'.val) = -b'.val by rw [G.neg, hy.1])
  rw [← sub_eq_add_neg] at hr
  rw [e2]
  exact ⟨by rw [Fl.val_sub, ← hr]; exact hh, by congr 1⟩

theorem same_mul {a b : FX G und} {a' b' : Fl ρ} (h1 : Same a a') (h2 : Same b b') : Same (a * b) (a' * b') := by
  rintro ⟨ha, hb, h, hu⟩
  obtain ⟨hx, ex⟩ := h1 ha
  obtain ⟨hy, ey⟩ := h2 hb
  have e : (a * b).val = XF.ofReal G (a'.val * b'.val) := by
    change a.val * b.val = _
    rw [ex, ey]; rfl
  change ¬ NonFin (a * b).val at h
  rw [e] at h ⊢
  rw [ex, ey] at hu
  obtain ⟨hh, e2⟩ := ofReal_fin h
  have hr : G.rnd (a'.val * b'.val) = _ := hA.rnd hu
  rw [e2]
  exact ⟨by rw [Fl.val_mul, ← hr]; exact hh, by congr 1⟩

theorem same_div {a b : FX G und} {a' b' : Fl ρ} (h1 : Same a a') (h2 : Same b b') :
    Same (a / b) (a' / b') ∧ ((a / b).ok → b'.val ≠ 0) := by
  have key : (a / b).ok → b'.val ≠ 0 ∧ (a / b).val = XF.ofReal G (a'.val / b'.val) := by
    rintro ⟨ha, hb, h, hu⟩
    obtain ⟨hx, ex⟩ := h1 ha
    obtain ⟨hy, ey⟩ := h2 hb
    have e : (a / b).val = if b'.val = 0 then XF.infOf G a'.val else XF.ofReal G (a'.val / b'.val) := by
      change a.val / b.val = _
      rw [ex, ey]; rfl
    change ¬ NonFin (a / b).val at h
    by_cases h0 : b'.val = 0
    · rw [e, if_pos h0] at h
      exact (h (infOf_nonFin _)).elim
    · rw [if_neg h0] at e
      exact ⟨h0, e⟩
  refine ⟨fun hok => ?_, fun h => (key h).1⟩
  obtain ⟨h0, e⟩ := key hok
  obtain ⟨ha, hb, h, hu⟩ := hok
  obtain ⟨hx, ex⟩ := h1 ha
  obtain ⟨hy, ey⟩ := h2 hb
  change ¬ NonFin (a / b).val at h
  rw [e] at h ⊢
  rw [ex, ey] at hu
  obtain ⟨hh, e2⟩ := ofReal_fin h
  have hr : G.rnd (a'.val / b'.val) = _ := hA.rnd hu
  rw [e2]
  exact ⟨by rw [Fl.val_div, ← hr]; exact hh, by congr 1⟩

theorem same_sqrt {a : FX G und} {a' : Fl ρ} (h1 : Same a a') : Same (FX.sqrt a) (Fl.sqrt a') ∧ ((FX.sqrt a).ok → 0 ≤ a'.val) := by
  have key : (FX.sqrt a).ok → 0 ≤ a'.val ∧ (FX.sqrt a).val = XF.ofReal G (Real.sqrt a'.val) := by
    rintro ⟨ha, h, hu⟩
    obtain ⟨hx, ex⟩ := h1 ha
    have e : (FX.sqrt a).val = if a'.val < 0 then .nan else XF.ofReal G (Real.sqrt a'.val) := by
      change XF.sqrt a.val = _
      rw [ex]; rfl
    change ¬ NonFin (FX.sqrt a).val at h
    by_cases h0 : a'.val < 0
    · rw [e, if_pos h0] at h
      exact (h nonFin_nan).elim
    · rw [if_neg h0] at e
      exact ⟨not_lt.1 h0, e⟩
  refine ⟨fun hok => ?_, fun h => (key h).1⟩
  obtain ⟨h0, e⟩ := key hok
  obtain ⟨ha, h, hu⟩ := hok
  obtain ⟨hx, ex⟩ := h1 ha
  change ¬ NonFin (FX.sqrt a).val at h
  rw [e] at h ⊢
  rw [ex] at hu
  obtain ⟨hh, e2⟩ := ofReal_fin h
  have hr : G.rnd (Real.sqrt a'.val) = _ := hA.rnd hu
  rw [e2]
  exact ⟨by rw [Fl.val_sqrt, ← hr]; exact hh, by congr 1⟩

omit hA in
theorem same_zero : Same (0 : FX G und) (0 : Fl ρ) := fun _ => ⟨_, rfl⟩
omit hA in
theorem same_one : Same (1 : FX G und) (1 : Fl ρ) := fun _ => ⟨_, rfl⟩

theorem respects_same : Expr.Respects (fun (i : FX G und) (f : Fl ρ) => Same i f) where
  zero := same_zero
  one := same_one
  add := same_add hA
  sub := same_sub hA
  mul := same_mul hA
  div := fun h1 h2 => (same_div hA h1 h2).1
  neg := same_neg hA

theorem same_inp (x : XF G) : Same (FX.inp x : FX G und) (toFl hA x) := by
  intro h
  obtain ⟨v, hv, rfl⟩ := fin_of h
  exact ⟨hv, rfl⟩

omit hA
theorem respects_val : Expr.Respects (fun (x : XF G) (i : FX G und) => i.val = x) where
  zero := rfl
  one := rfl
  add := by rintro _ _ _ _ rfl rfl; rfl
  sub := by rintro _ _ _ _ rfl rfl; rfl
  mul := by rintro _ _ _ _ rfl rfl; rfl
  div := by rintro _ _ _ _ rfl rfl; rfl
  neg := by rintro _ _ rfl; rfl

/-- a raised flag stays -/
theorem sticky_flag : Sticky (fun i : FX G und => ¬ i.ok) where
  add := fun a b h hh => h.elim (fun h => h hh.1) (fun h => h hh.2.1)
  sub := fun a b h hh => h.elim (fun h => h hh.1) (fun h => h hh.2.1)
  mul := fun a b h hh => h.elim (fun h => h hh.1) (fun h => h hh.2.1)
  num := fun a b h hh => h hh.1
  neg := fun a h hh => h hh

/-! ### Maps of programs compose -/
section maps
variable {K K' K'' : Type} (g : K → K') (f : K' → K'')
theorem ex_map_map {k : Expr.Knd} (e : Expr.Ex K k) : (e.map g).map f = e.map (f ∘ g) := by
  induction e <;> simp_all [Expr.Ex.map]
theorem rhs_map_map {k : Expr.Knd} (e : Expr.Rhs K k) : (e.map g).map f = e.map (f ∘ g) := by
  cases e <;> simp [Expr.Rhs.map, ex_map_map]
theorem stmt_map_map (e : Expr.Stmt K) : (e.map g).map f = e.map (f ∘ g) := by
  cases e <;> simp [Expr.Stmt.map, ex_map_map, rhs_map_map]
theorem prog_map_map (p : List (Expr.Stmt K)) :
    (p.map (Expr.Stmt.map g)).map (Expr.Stmt.map f) = p.map (Expr.Stmt.map (f ∘ g)) := by
  rw [List.map_map]
  congr 1
  funext s
  exact stmt_map_map g f s
end maps

/-! ### The solver -/

theorem fabs_val (a : FX G und) : (fabs a).val = fabs a.val := by
  unfold fabs
  by_cases h : a.val < 0
  · rw [if_pos h, if_pos (show a < 0 from h)]; rfl
  · rw [if_neg h, if_neg (show ¬ a < 0 from h)]

theorem fabs_same {a : FX G und} {a' : Fl ρ} (hs : Same a a') (hok : a.ok) :
    ∃ h, (fabs a).val = .fin (fabs a').val h := by
  obtain ⟨h, e⟩ := hs hok
  rw [fabs_val, e]
  unfold fabs
  by_cases h0 : a'.val < 0
  · rw [if_pos (show (XF.fin a'.val h : XF G) < 0 from fin_lt.2 h0), if_pos (show a' < 0 from h0)]
    exact ⟨_, rfl⟩
  · rw [if_neg (fun hh : (XF.fin a'.val h : XF G) < 0 => h0 (fin_lt.1 hh)), if_neg (show ¬ a' < 0 from h0)]
    exact ⟨h, rfl⟩

theorem flag_upd (a f x : FX G und) (h : ¬ a.ok ∨ ¬ f.ok ∨ ¬ x.ok) : ¬ (a - f * x).ok := by
  rcases h with h | h | h
  · exact sticky_flag.sub _ _ (Or.inl h)
  · exact sticky_flag.sub _ _ (Or.inr (sticky_flag.mul _ _ (Or.inl h)))
  · exact sticky_flag.sub _ _ (Or.inr (sticky_flag.mul _ _ (Or.inr h)))

theorem flag_inv (a : FX G und) (h : ¬ a.ok) : ¬ ((1 : FX G und) / a).ok := fun hh => h hh.2.1

/-- dropping the flags -/
theorem solve_val (n nc : Nat) (A b x : Mat (XF G)) (r q : Nat) (hr : r < n) (hq : q < nc) :
    (gaussElimT (fun a f x => a - f * x) n nc (fun r c => (FX.inp (A r c) : FX G und)) (fun r c => FX.inp (b r c))
      (fun r c => FX.inp (x r c)) r q).val = gaussElimT (fun a f x => a - f * x) n nc A b x r q := by
  have hR : OpRel (fun (i : FX G und) (x : XF G) => i.val = x) (fun a f x => a - f * x) (fun a f x => a - f * x) :=
    ⟨by rintro _ _ _ _ rfl rfl; rfl, by rintro _ _ _ _ rfl rfl; rfl, by rintro _ _ rfl; rfl,
     by rintro _ _ _ _ _ _ rfl rfl rfl; rfl⟩
  refine (gaussElimT_rel hR n nc _ _ _ A b x (fun r c _ _ => rfl) (fun r q _ _ => rfl) ?_).2 r q hr hq
  intro i hi h
  refine pivotRow_rel n i hi _ _ ?_
  intro r s h1 h2 h3 h4
  have e1 := h.1 r i ⟨h2, hi, Or.inl ⟨h1, le_refl _⟩⟩
  have e2 := h.1 s i ⟨h4, hi, Or.inl ⟨h3, le_refl _⟩⟩
  rw [← e1, ← e2, ← fabs_val, ← fabs_val]
  exact Iff.rfl

/-- where no pivot vanishes, the partial model returns what the total one does -/
theorem gaussElimU_of_pivots {K : Type} [Zero K] [One K] [Add K] [Sub K] [Mul K] [Div K] [Neg K] [LT K] [DecidableLT K]
    [DecidableEq K] (upd : K → K → K → K) (n nc : Nat) (A b x : Mat K)
    (h : ∀ i, i < n → (forN i (geStepT upd n nc) (A, b)).1 (pivotRow n i (forN i (geStepT upd n nc) (A, b)).1) i ≠ 0) :
    gaussElimU upd n nc A b x = some (gaussElimT upd n nc A b x) := by
  have key : ∀ k, k ≤ n → forNM k (geStepU upd n nc) (A, b) = some (forN k (geStepT upd n nc) (A, b)) := by
    intro k
    induction k with
    | zero => intro _; rfl
    | succ k ih =>
      intro hk
      rw [forNM_succ, ih (by omega), forN_succ]
      have := h k (by omega)
      generalize forN k (geStepT upd n nc) (A, b) = st at *
      obtain ⟨A1, b1⟩ := st
      exact geStepU_eq upd n nc k A1 b1 this
  unfold gaussElimU gaussElimT
  rw [key n (le_refl _)]
  rfl

include hA in
/-- if no flag is raised, the solver of the format is the solver of the standard model -/
theorem solve_same (n nc : Nat) (hnc : 1 ≤ nc) (A b x : Mat (XF G)) (x' : Mat (Fl ρ))
    (hok : ∀ r q, r < n → q < nc → (gaussElimT (fun a f x => a - f * x) n nc (fun r c => (FX.inp (A r c) : FX G und))
      (fun r c => FX.inp (b r c)) (fun r c => FX.inp (x r c)) r q).ok) :
    ∃ X, gaussElim n nc (fun r c => toFl hA (A r c)) (fun r c => toFl hA (b r c)) x' = some X ∧
      ∀ r q, r < n → q < nc → ∃ h, gaussElimT (fun a f x => a - f * x) n nc A b x r q = .fin (X r q).val h := by
  set IA : Mat (FX G und) := fun r c => FX.inp (A r c) with hIA
  set Ib : Mat (FX G und) := fun r c => FX.inp (b r c) with hIb
  set Ix : Mat (FX G und) := fun r c => FX.inp (x r c) with hIx
  have hR : OpRel (fun (i : FX G und) (f : Fl ρ) => Same i f) (fun a f x => a - f * x) (fun a f x => a - f * x) :=
    ⟨same_mul hA, same_sub hA, fun h => (same_div hA same_one h).1, fun h1 h2 h3 => same_sub hA h1 (same_mul hA h2 h3)⟩
  -- no flag on any element that is still used
  have good : ∀ i, i ≤ n → ¬ Bad (fun i : FX G und => ¬ i.ok) n 0 i (forN i (geStepT (fun a f x => a - f * x) n nc) (IA, Ib)).1
      (forN i (geStepT (fun a f x => a - f * x) n nc) (IA, Ib)).2 := by
    intro i hi hbad
    have step : ∀ k, i + k ≤ n → Bad (fun i : FX G und => ¬ i.ok) n 0 (i + k)
        (forN (i + k) (geStepT (fun a f x => a - f * x) n nc) (IA, Ib)).1
        (forN (i + k) (geStepT (fun a f x => a - f * x) n nc) (IA, Ib)).2 := by
      intro k
      induction k with
      | zero => intro _; exact hbad
      | succ k ih =>
        intro hk
        rw [← Nat.add_assoc, forN_succ]
        exact geStepT_bad sticky_flag flag_inv _ flag_upd n nc 0 (i + k) (by omega) (by omega) _ (ih (by omega))
    have hn := step (n - i) (by omega)
    rw [show i + (n - i) = n by omega] at hn
    obtain ⟨r, hr, hr2⟩ := geBack_bad sticky_flag n nc 0 (by omega) _ _ Ix hn
    exact hr2 (hok r 0 hr (by omega))
  have live : ∀ i, i ≤ n → ∀ r c, Live n i r c →
      ((forN i (geStepT (fun a f x => a - f * x) n nc) (IA, Ib)).1 r c).ok := by
    intro i hi r c h
    by_contra hh
    exact good i hi (Or.inr ⟨r, c, h.1, h.2.1, h.2.2, hh⟩)
  have hpiv : ∀ i, i < n → StRel (fun (i : FX G und) (f : Fl ρ) => Same i f) n nc i
      (forN i (geStepT (fun a f x => a - f * x) n nc) (IA, Ib))
      (forN i (geStepT (fun a f x => a - f * x) n nc) (fun r c => toFl hA (A r c), fun r c => toFl hA (b r c))) →
      pivotRow n i (forN i (geStepT (fun a f x => a - f * x) n nc) (IA, Ib)).1 =
      pivotRow n i (forN i (geStepT (fun a f x => a - f * x) n nc) (fun r c => toFl hA (A r c), fun r c => toFl hA (b r c))).1 := by
    intro i hi h
    refine pivotRow_rel n i hi _ _ ?_
    intro r s h1 h2 h3 h4
    have l1 : Live n i r i := ⟨h2, hi, Or.inl ⟨h1, le_refl _⟩⟩
    have l2 : Live n i s i := ⟨h4, hi, Or.inl ⟨h3, le_refl _⟩⟩
    obtain ⟨g1, e1⟩ := fabs_same (h.1 r i l1) (live i hi.le r i l1)
    obtain ⟨g2, e2⟩ := fabs_same (h.1 s i l2) (live i hi.le s i l2)
    change (fabs _ : FX G und).val < (fabs _ : FX G und).val ↔ _
    rw [e1, e2]
    exact fin_lt
  obtain ⟨hst, hres⟩ := gaussElimT_rel hR n nc IA Ib Ix (fun r c => toFl hA (A r c)) (fun r c => toFl hA (b r c)) x'
    (fun r c _ _ => same_inp hA _) (fun r q _ _ => same_inp hA _) hpiv
  refine ⟨_, gaussElimU_of_pivots (fun a f x => a - f * x) n nc _ _ x' ?_, ?_⟩
  · intro i hi
    have h := hst i hi.le
    rw [← hpiv i hi h]
    obtain ⟨p1, p2⟩ := pivotRow_range n i hi (forN i (geStepT (fun a f x => a - f * x) n nc) (IA, Ib)).1
    set p := pivotRow n i (forN i (geStepT (fun a f x => a - f * x) n nc) (IA, Ib)).1 with hpdef
    have hs := h.1 p i ⟨p2, hi, Or.inl ⟨p1, le_refl _⟩⟩
    -- the right-hand side of the pivot row is multiplied by 1/pivot
    have hb : ((forN (i+1) (geStepT (fun a f x => a - f * x) n nc) (IA, Ib)).2 i 0).ok := by
      by_contra hh
      exact good (i+1) hi (Or.inl ⟨i, hi, hh⟩)
    rw [forN_succ] at hb
    revert hb hs
    generalize forN i (geStepT (fun a f x => a - f * x) n nc) (IA, Ib) = st at *
    obtain ⟨A1, b1⟩ := st
    intro hs hb
    obtain ⟨A2, b2, e, -, hb2, -⟩ := geStepT_gen (fun a f x : FX G und => a - f * x) n nc i hi A1 b1 p hpdef.symm
    rw [e] at hb
    dsimp only at hb hs
    rw [hb2 i 0 (by omega), if_pos rfl] at hb
    have hinv : ((1 : FX G und) / A1 p i).ok := hb.2.1
    have h0 := (same_div hA same_one hs).2 hinv
    intro hz
    rw [hz] at h0
    exact h0 rfl
  · intro r q hr hq
    obtain ⟨h, e⟩ := hres r q hr hq (hok r q hr hq)
    rw [← solve_val (und := und) n nc A b x r q hr hq]
    exact ⟨h, e⟩

end TooN.Special
