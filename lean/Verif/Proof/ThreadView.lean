import Verif.Proof.ThreadExpr
/-!
# Views, and the frame property of expressions
-/
set_option linter.unusedSectionVars false
set_option linter.unusedSimpArgs false
namespace TooN.Expr
open TooN.Thread

variable {K : Type} [Zero K] [One K] [Add K] [Sub K] [Mul K] [Div K] [Neg K]

theorem run_view {ρ : CEnv K} (ht : Tidy ρ) : {k : Knd} → (e : Ex K k) → isView e = true →
    VR ρ (locate ρ e) (run ρ e)
  | _, .varV i, _ => by
    unfold locate run
    cases hb : ρ.v i with
    | none => rfl
    | some b =>
      show _ = _
      simp only
      congr 1
      obtain ⟨S, n, cell⟩ := b
      congr 1
      funext j
      show cell j = ρ.cellOf (.v i) (j, 0)
      simp only [CEnv.cellOf, hb, Option.bind_some, and_true]
      split
      · rfl
      · exact ht.v i _ hb j (by assumption)
  | _, .varM i, _ => by
    unfold locate run
    cases hb : ρ.m i with
    | none => rfl
    | some b =>
      show _ = _
      simp only
      congr 1
      obtain ⟨R, C, r, c, cell⟩ := b
      congr 1
      funext j l
      show cell j l = ρ.cellOf (.m i) (j, l)
      simp only [CEnv.cellOf, hb, Option.bind_some]
      split
      · rfl
      · exact ht.m i _ hb j l (by assumption)
  | _, .idx a i, h => by
    have ih := run_view ht a h
    refine VR.elim ih _ _ fun l hl => ?_
    rw [hl] at ih
    rw [show run ρ a = _ from ih]
    show VR (k := .s) ρ _ (idxB _ i)
    unfold idxB VB.get
    by_cases h1 : 0 ≤ i
    · by_cases h2 : i < l.n
      · rw [if_pos ⟨h1, h2⟩, if_pos h1, if_pos (by show i.toNat < l.n; omega)]
        show _ = ρ.read l.root (l.cell i.toNat)
        rw [read_eq]; rfl
      · rw [if_neg (fun h => h2 h.2), if_pos h1, if_neg (by show ¬ i.toNat < l.n; omega)]
        rfl
    · rw [if_neg (fun h => h1 h.1), if_neg h1]; rfl
  | _, .el A i j, h => by
    have ih := run_view ht A h
    refine VR.elim ih _ _ fun l hl => ?_
    rw [hl] at ih
    rw [show run ρ A = _ from ih]
    show VR (k := .s) ρ _ (elB _ i j)
    unfold elB MB.get
    by_cases h1 : 0 ≤ i ∧ 0 ≤ j
    · by_cases h2 : i < l.r ∧ j < l.c
      · rw [if_pos ⟨⟨h1.1, h2.1⟩, h1.2, h2.2⟩, if_pos h1,
          if_pos (by show i.toNat < l.r ∧ j.toNat < l.c; omega)]
        show _ = ρ.read l.root (l.cell i.toNat j.toNat)
        rw [read_eq]; rfl
      · rw [if_neg (fun h => h2 ⟨h.1.2, h.2.2⟩), if_pos h1,
          if_neg (by show ¬ (i.toNat < l.r ∧ j.toNat < l.c); omega)]
        rfl
    · rw [if_neg (fun h => h1 ⟨h.1.1, h.2.1⟩), if_neg h1]; rfl
  | _, .sliceV a s n, h => by
    have ih := run_view ht a h
    refine VR.elim ih _ _ fun l hl => ?_
    rw [hl] at ih
    rw [show run ρ a = _ from ih]
    show VR (k := .v) ρ _ (sliceB _ s n)
    unfold sliceB
    dsimp only
    cases Checks.sliceDyn l.S l.n s n <;> rfl
  | _, .row A i, h => by
    have ih := run_view ht A h
    refine VR.elim ih _ _ fun l hl => ?_
    rw [hl] at ih
    rw [show run ρ A = _ from ih]
    show VR (k := .v) ρ _ (rowB _ i)
    unfold rowB MB.row
    by_cases h1 : 0 ≤ i
    · by_cases h2 : i < l.r
      · rw [if_pos ⟨h1, h2⟩, if_pos h1, if_pos (by show i.toNat < l.r; omega)]; rfl
      · rw [if_neg (fun h => h2 h.2), if_pos h1, if_neg (by show ¬ i.toNat < l.r; omega)]; rfl
    · rw [if_neg (fun h => h1 h.1), if_neg h1]; rfl
  | _, .diagS A, h => by
    have ih := run_view ht A h
    refine VR.elim ih _ _ fun l hl => ?_
    rw [hl] at ih
    rw [show run ρ A = _ from ih]
    rfl
  | _, .transp A, h => by
    have ih := run_view ht A h
    refine VR.elim ih _ _ fun l hl => ?_
    rw [hl] at ih
    rw [show run ρ A = _ from ih]
    rfl
  | _, .sliceM A rs cs rl cl, h => by
    have ih := run_view ht A h
    refine VR.elim ih _ _ fun l hl => ?_
    rw [hl] at ih
    rw [show run ρ A = _ from ih]
    show VR (k := .m) ρ _ (sliceMB _ rs cs rl cl)
    unfold sliceMB
    dsimp only
    cases Checks.sliceDyn l.R l.r rs rl <;> cases Checks.sliceDyn l.C l.c cs cl <;> rfl
  | _, .asCol a, h => by
    have ih := run_view ht a h
    refine VR.elim ih _ _ fun l hl => ?_
    rw [hl] at ih
    rw [show run ρ a = _ from ih]
    show VR (k := .m) ρ _ (asColB _)
    unfold asColB
    by_cases hS : l.S = Checks.Resizable
    · rw [if_pos hS, if_pos hS]; rfl
    · rw [if_neg hS, if_neg hS]; rfl
  | _, .asRow a, h => by
    have ih := run_view ht a h
    refine VR.elim ih _ _ fun l hl => ?_
    rw [hl] at ih
    rw [show run ρ a = _ from ih]
    show VR (k := .m) ρ _ (asRowB _)
    unfold asRowB
    by_cases hS : l.S = Checks.Resizable
    · rw [if_pos hS, if_pos hS]; rfl
    · rw [if_neg hS, if_neg hS]; rfl

theorem view_frame {ρ σ : CEnv K} (hρ : Tidy ρ) (hσ : Tidy σ) {k : Knd} (e : Ex K k)
    (hv : isView e = true) (hs : ∀ r ∈ vars e, ρ.shapeOf r = σ.shapeOf r)
    (hc : ∀ c ∈ viewCells ρ e, ρ.cellOf c.1 c.2 = σ.cellOf c.1 c.2) :
    ORel CEq (run ρ e) (run σ e) := by
  have h1 := run_view hρ e hv
  have h2 := run_view hσ e hv
  rw [← locate_congr e hs] at h2
  unfold viewCells at hc
  cases hl : locate ρ e with
  | ok l =>
    rw [hl] at h1 h2 hc
    dsimp only at hc
    cases k with
    | s =>
      have h1' : run ρ e = ρ.read l.1 l.2 := h1
      have h2' : run σ e = σ.read l.1 l.2 := h2
      rw [h1', h2', read_eq, read_eq, hc l (by simp [locCells])]
      exact ORel.refl (fun a => CEq.rfl' (k := .s) a) _
    | v =>
      have h1' : run ρ e = .ok _ := h1
      have h2' : run σ e = .ok _ := h2
      rw [h1', h2']
      refine .ok ⟨rfl, rfl, fun i hi => hc (VL.root l, VL.cell l i) ?_⟩
      simp only [locCells, List.mem_map, List.mem_range]
      exact ⟨i, hi, rfl⟩
    | m =>
      have h1' : run ρ e = .ok _ := h1
      have h2' : run σ e = .ok _ := h2
      rw [h1', h2']
      refine .ok ⟨rfl, rfl, rfl, rfl, fun i j hi hj => hc (ML.root l, ML.cell l i j) ?_⟩
      simp only [locCells, List.mem_flatMap, List.mem_map, List.mem_range]
      exact ⟨i, hi, j, hj, rfl⟩
  | abort =>
    rw [hl] at h1 h2
    have h1' : run ρ e = .abort := by cases k <;> exact h1
    have h2' : run σ e = .abort := by cases k <;> exact h2
    rw [h1', h2']; exact .abort
  | ub =>
    rw [hl] at h1 h2
    have h1' : run ρ e = .ub := by cases k <;> exact h1
    have h2' : run σ e = .ub := by cases k <;> exact h2
    rw [h1', h2']; exact .ub

/-- related, and equal unless the expression is a view -/
def FR {k : Knd} (ρ σ : CEnv K) (e : Ex K k) : Prop :=
  ORel CEq (run ρ e) (run σ e) ∧ (isView e = false → run ρ e = run σ e)

theorem FR.of_eq {k : Knd} {ρ σ : CEnv K} {e : Ex K k} (h : run ρ e = run σ e) : FR ρ σ e :=
  ⟨h ▸ ORel.refl (fun a => CEq.rfl' a) _, fun _ => h⟩

/-- The value of an expression depends only on the sizes of its variables and the cells of its
views. -/
theorem run_frame {ρ σ : CEnv K} (hρ : Tidy ρ) (hσ : Tidy σ) {k : Knd} (e : Ex K k)
    (hs : ∀ r ∈ vars e, ρ.shapeOf r = σ.shapeOf r)
    (hc : ∀ c ∈ foot ρ e, ρ.cellOf c.1 c.2 = σ.cellOf c.1 c.2) : FR ρ σ e := by
  have view : ∀ {k k' : Knd} (e : Ex K k) (a : Ex K k') (g : CVal K k' → Outcome (CVal K k)),
      (∀ ρ : CEnv K, run ρ e = (run ρ a).bind g) → vars e = vars a → isView e = isView a →
      (foot ρ e = if isView a then viewCells ρ e else foot ρ a) →
      ((∀ r ∈ vars a, ρ.shapeOf r = σ.shapeOf r) →
        (∀ c ∈ foot ρ a, ρ.cellOf c.1 c.2 = σ.cellOf c.1 c.2) → FR ρ σ a) →
      (∀ r ∈ vars e, ρ.shapeOf r = σ.shapeOf r) →
      (∀ c ∈ foot ρ e, ρ.cellOf c.1 c.2 = σ.cellOf c.1 c.2) → FR ρ σ e := by
    intro k k' e a g hr hvars hview hfoot ih hs hc
    rw [hfoot] at hc
    by_cases hv : isView a = true
    · rw [if_pos hv] at hc
      refine ⟨view_frame hρ hσ e (hview.trans hv) hs hc, fun h => ?_⟩
      rw [hview, hv] at h; cases h
    · rw [if_neg hv] at hc
      apply FR.of_eq
      rw [hr, hr, (ih (hvars ▸ hs) hc).2 (by simpa using hv)]
  have un : ∀ {k k' : Knd} (e : Ex K k) (a : Ex K k') (g : CVal K k' → Outcome (CVal K k)),
      (∀ ρ : CEnv K, run ρ e = (run ρ a).bind g) → vars e = vars a → (foot ρ e = foot ρ a) →
      (∀ x y : CVal K k', CEq x y → g x = g y) →
      ((∀ r ∈ vars a, ρ.shapeOf r = σ.shapeOf r) →
        (∀ c ∈ foot ρ a, ρ.cellOf c.1 c.2 = σ.cellOf c.1 c.2) → FR ρ σ a) →
      (∀ r ∈ vars e, ρ.shapeOf r = σ.shapeOf r) →
      (∀ c ∈ foot ρ e, ρ.cellOf c.1 c.2 = σ.cellOf c.1 c.2) → FR ρ σ e := by
    intro k k' e a g hr hvars hfoot hg ih hs hc
    apply FR.of_eq
    rw [hr, hr]
    exact (ih (hvars ▸ hs) (hfoot ▸ hc)).1.eq hg
  have bin : ∀ {k k1 k2 : Knd} (e : Ex K k) (a : Ex K k1) (b : Ex K k2)
      (g : CVal K k1 → CVal K k2 → Outcome (CVal K k)),
      (∀ ρ : CEnv K, run ρ e = (run ρ a).bind fun x => (run ρ b).bind fun y => g x y) →
      vars e = vars a ++ vars b → (foot ρ e = foot ρ a ++ foot ρ b) →
      (∀ (x y : CVal K k1) (x' y' : CVal K k2), CEq x y → CEq x' y' → g x x' = g y y') →
      ((∀ r ∈ vars a, ρ.shapeOf r = σ.shapeOf r) →
        (∀ c ∈ foot ρ a, ρ.cellOf c.1 c.2 = σ.cellOf c.1 c.2) → FR ρ σ a) →
      ((∀ r ∈ vars b, ρ.shapeOf r = σ.shapeOf r) →
        (∀ c ∈ foot ρ b, ρ.cellOf c.1 c.2 = σ.cellOf c.1 c.2) → FR ρ σ b) →
      (∀ r ∈ vars e, ρ.shapeOf r = σ.shapeOf r) →
      (∀ c ∈ foot ρ e, ρ.cellOf c.1 c.2 = σ.cellOf c.1 c.2) → FR ρ σ e := by
    intro k k1 k2 e a b g hr hvars hfoot hg iha ihb hs hc
    rw [hvars] at hs
    rw [hfoot] at hc
    apply FR.of_eq
    rw [hr, hr]
    refine (iha (fun r h => hs r (List.mem_append_left _ h))
      (fun c h => hc c (List.mem_append_left _ h))).1.eq fun x y hxy => ?_
    exact (ihb (fun r h => hs r (List.mem_append_right _ h))
      (fun c h => hc c (List.mem_append_right _ h))).1.eq fun x' y' hxy' => hg _ _ _ _ hxy hxy'
  induction e with
  | lit x => exact FR.of_eq rfl
  | varV i => exact ⟨view_frame hρ hσ _ rfl hs hc, fun h => by cases h⟩
  | varM i => exact ⟨view_frame hρ hσ _ rfl hs hc, fun h => by cases h⟩
  | dot a b ih1 ih2 =>
    exact bin (.dot a b) a b _ (fun _ => rfl) rfl rfl
      (fun _ _ _ _ h h' => dotB_congr h h') ih1 ih2 hs hc
  | idx a i ih =>
    exact view (.idx a i) a _ (fun _ => rfl) rfl rfl rfl ih hs hc
  | el a i j ih =>
    exact view (.el a i j) a _ (fun _ => rfl) rfl rfl rfl ih hs hc
  | sliceV a s l ih =>
    exact view (.sliceV a s l) a _ (fun _ => rfl) rfl rfl rfl ih hs hc
  | row a i ih =>
    exact view (.row a i) a _ (fun _ => rfl) rfl rfl rfl ih hs hc
  | diagS a ih =>
    exact view (.diagS a) a _ (fun _ => rfl) rfl rfl rfl ih hs hc
  | transp a ih =>
    exact view (.transp a) a _ (fun _ => rfl) rfl rfl rfl ih hs hc
  | sliceM a q1 q2 q3 q4 ih =>
    exact view (.sliceM a q1 q2 q3 q4) a _ (fun _ => rfl) rfl rfl rfl ih hs hc
  | asCol a ih =>
    exact view (.asCol a) a _ (fun _ => rfl) rfl rfl rfl ih hs hc
  | asRow a ih =>
    exact view (.asRow a) a _ (fun _ => rfl) rfl rfl rfl ih hs hc
  | onesV S n s ih =>
    exact un (.onesV S n s) s _ (fun _ => rfl) rfl rfl (fun _ _ (h : _ = _) => by rw [h]) ih hs hc
  | convV S a ih =>
    exact un (.convV S a) a _ (fun _ => rfl) rfl rfl (fun _ _ h => convVB_congr _ h) ih hs hc
  | negV a ih =>
    exact un (.negV a) a _ (fun _ => rfl) rfl rfl (fun _ _ h => vnegate_congr h) ih hs hc
  | onesM q1 q2 q3 q4 s ih =>
    exact un (.onesM q1 q2 q3 q4 s) s _ (fun _ => rfl) rfl rfl (fun _ _ (h : _ = _) => by rw [h]) ih hs hc
  | identM q1 q2 q3 s ih =>
    exact un (.identM q1 q2 q3 s) s _ (fun _ => rfl) rfl rfl (fun _ _ (h : _ = _) => by rw [h]) ih hs hc
  | convM q1 q2 a ih =>
    exact un (.convM q1 q2 a) a _ (fun _ => rfl) rfl rfl (fun _ _ h => convMB_congr _ _ h) ih hs hc
  | negM a ih =>
    exact un (.negM a) a _ (fun _ => rfl) rfl rfl (fun _ _ h => mnegate_congr h) ih hs hc
  | binV o a b ih1 ih2 =>
    exact bin (.binV o a b) a b _ (fun _ => rfl) rfl rfl
      (fun _ _ _ _ h h' => vpairwise_congr o h h') ih1 ih2 hs hc
  | scaV o a b ih1 ih2 =>
    exact bin (.scaV o a b) a b _ (fun _ => rfl) rfl rfl
      (fun _ _ _ _ h (h' : _ = _) => by rw [h']; exact applyScalarV_congr o h _) ih1 ih2 hs hc
  | onesOpV o a b ih1 ih2 =>
    exact bin (.onesOpV o a b) a b _ (fun _ => rfl) rfl rfl
      (fun _ _ _ _ h (h' : _ = _) => by rw [h']; exact scalarsV_congr o h _) ih1 ih2 hs hc
  | cross a b ih1 ih2 =>
    exact bin (.cross a b) a b _ (fun _ => rfl) rfl rfl
      (fun _ _ _ _ h h' => crossB_congr h h') ih1 ih2 hs hc
  | mulMV a b ih1 ih2 =>
    exact bin (.mulMV a b) a b _ (fun _ => rfl) rfl rfl
      (fun _ _ _ _ h h' => matVec_congr h h') ih1 ih2 hs hc
  | mulVM a b ih1 ih2 =>
    exact bin (.mulVM a b) a b _ (fun _ => rfl) rfl rfl
      (fun _ _ _ _ h h' => vecMat_congr h h') ih1 ih2 hs hc
  | diagMulV a b ih1 ih2 =>
    exact bin (.diagMulV a b) a b _ (fun _ => rfl) rfl rfl
      (fun _ _ _ _ h h' => diagVec_congr h h') ih1 ih2 hs hc
  | binM o a b ih1 ih2 =>
    exact bin (.binM o a b) a b _ (fun _ => rfl) rfl rfl
      (fun _ _ _ _ h h' => mpairwise_congr o h h') ih1 ih2 hs hc
  | scaM o a b ih1 ih2 =>
    exact bin (.scaM o a b) a b _ (fun _ => rfl) rfl rfl
      (fun _ _ _ _ h (h' : _ = _) => by rw [h']; exact applyScalarM_congr o h _) ih1 ih2 hs hc
  | onesOpM o a b ih1 ih2 =>
    exact bin (.onesOpM o a b) a b _ (fun _ => rfl) rfl rfl
      (fun _ _ _ _ h (h' : _ = _) => by rw [h']; exact scalarsM_congr o h _) ih1 ih2 hs hc
  | identOpM o a b ih1 ih2 =>
    exact bin (.identOpM o a b) a b _ (fun _ => rfl) rfl rfl
      (fun _ _ _ _ h (h' : _ = _) => by rw [h']; exact addIdent_congr o h _) ih1 ih2 hs hc
  | mulMM a b ih1 ih2 =>
    exact bin (.mulMM a b) a b _ (fun _ => rfl) rfl rfl
      (fun _ _ _ _ h h' => matMat_congr h h') ih1 ih2 hs hc
  | mulMD a b ih1 ih2 =>
    exact bin (.mulMD a b) a b _ (fun _ => rfl) rfl rfl
      (fun _ _ _ _ h h' => matDiag_congr h h') ih1 ih2 hs hc
  | mulDM a b ih1 ih2 =>
    exact bin (.mulDM a b) a b _ (fun _ => rfl) rfl rfl
      (fun _ _ _ _ h h' => diagMat_congr h h') ih1 ih2 hs hc

end TooN.Expr
