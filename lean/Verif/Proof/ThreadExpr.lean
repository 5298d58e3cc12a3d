import Verif.Proof.ThreadFrame
/-!
# Expressions depend only on the sizes of their variables and the cells of their views
-/
set_option linter.unusedSectionVars false
set_option linter.unusedSimpArgs false
namespace TooN.Expr
open TooN.Thread

variable {K : Type}

/-- objects have no cells outside their dimensions -/
structure Tidy (ρ : CEnv K) : Prop where
  v : ∀ i b, ρ.v i = some b → ∀ k, ¬ k < b.n → b.cell k = none
  m : ∀ i b, ρ.m i = some b → ∀ k l, ¬ (k < b.r ∧ l < b.c) → b.cell k l = none

theorem locate_congr {ρ σ : CEnv K} : {k : Knd} → (e : Ex K k) →
    (∀ r ∈ vars e, ρ.shapeOf r = σ.shapeOf r) → locate ρ e = locate σ e
  | _, .varV i, h => by
    have := h (.v i) (by simp [vars])
    simp only [CEnv.shapeOf] at this
    unfold locate
    cases h1 : ρ.v i <;> cases h2 : σ.v i <;> simp_all
  | _, .varM i, h => by
    have := h (.m i) (by simp [vars])
    simp only [CEnv.shapeOf] at this
    unfold locate
    cases h1 : ρ.m i <;> cases h2 : σ.m i <;> simp_all
  | _, .idx a i, h => by unfold locate; rw [locate_congr a h]
  | _, .el A i j, h => by unfold locate; rw [locate_congr A h]
  | _, .sliceV a _ _, h => by unfold locate; rw [locate_congr a h]
  | _, .row A i, h => by unfold locate; rw [locate_congr A h]
  | _, .diagS A, h => by unfold locate; rw [locate_congr A h]
  | _, .transp A, h => by unfold locate; rw [locate_congr A h]
  | _, .sliceM A _ _ _ _, h => by unfold locate; rw [locate_congr A h]
  | _, .asCol a, h => by unfold locate; rw [locate_congr a h]
  | _, .asRow a, h => by unfold locate; rw [locate_congr a h]
  | _, .lit _, _ => rfl
  | _, .dot _ _, _ => rfl
  | _, .onesV _ _ _, _ => rfl
  | _, .convV _ _, _ => rfl
  | _, .binV _ _ _, _ => rfl
  | _, .negV _, _ => rfl
  | _, .scaV _ _ _, _ => rfl
  | _, .onesOpV _ _ _, _ => rfl
  | _, .cross _ _, _ => rfl
  | _, .mulMV _ _, _ => rfl
  | _, .mulVM _ _, _ => rfl
  | _, .diagMulV _ _, _ => rfl
  | _, .onesM _ _ _ _ _, _ => rfl
  | _, .identM _ _ _ _, _ => rfl
  | _, .convM _ _ _, _ => rfl
  | _, .binM _ _ _, _ => rfl
  | _, .negM _, _ => rfl
  | _, .scaM _ _ _, _ => rfl
  | _, .onesOpM _ _ _, _ => rfl
  | _, .identOpM _ _ _, _ => rfl
  | _, .mulMM _ _, _ => rfl
  | _, .mulMD _ _, _ => rfl
  | _, .mulDM _ _, _ => rfl

def CLoc.root : {k : Knd} → CLoc k → Root
  | .s, l => l.1
  | .v, l => VL.root l
  | .m, l => ML.root l

theorem locate_root {ρ : CEnv K} : {k : Knd} → (e : Ex K k) → (l : CLoc k) → locate ρ e = .ok l →
    CLoc.root l ∈ vars e
  | _, .varV i, l, h => by
    unfold locate at h
    cases h1 : ρ.v i with
    | none => rw [h1] at h; cases h
    | some b => rw [h1] at h; cases h; simp [vars, CLoc.root]
  | _, .varM i, l, h => by
    unfold locate at h
    cases h1 : ρ.m i with
    | none => rw [h1] at h; cases h
    | some b => rw [h1] at h; cases h; simp [vars, CLoc.root]
  | _, .idx a i, l, h => by
    unfold locate at h
    cases h1 : locate ρ a with
    | ok l' =>
      have ih := locate_root a l' h1
      rw [h1] at h; simp only [Outcome.bind] at h
      split at h <;> cases h
      exact ih
    | abort => rw [h1] at h; cases h
    | ub => rw [h1] at h; cases h
  | _, .el A i j, l, h => by
    unfold locate at h
    cases h1 : locate ρ A with
    | ok l' =>
      have ih := locate_root A l' h1
      rw [h1] at h; simp only [Outcome.bind] at h
      split at h <;> cases h
      exact ih
    | abort => rw [h1] at h; cases h
    | ub => rw [h1] at h; cases h
  | _, .sliceV a s n, l, h => by
    unfold locate at h
    cases h1 : locate ρ a with
    | ok l' =>
      have ih := locate_root a l' h1
      rw [h1] at h; simp only [Outcome.bind] at h
      split at h <;> cases h
      exact ih
    | abort => rw [h1] at h; cases h
    | ub => rw [h1] at h; cases h
  | _, .row A i, l, h => by
    unfold locate at h
    cases h1 : locate ρ A with
    | ok l' =>
      have ih := locate_root A l' h1
      rw [h1] at h; simp only [Outcome.bind] at h
      split at h <;> cases h
      exact ih
    | abort => rw [h1] at h; cases h
    | ub => rw [h1] at h; cases h
  | _, .diagS A, l, h => by
    unfold locate at h
    cases h1 : locate ρ A with
    | ok l' =>
      have ih := locate_root A l' h1
      rw [h1] at h; simp only [Outcome.bind] at h
      cases h
      exact ih
    | abort => rw [h1] at h; cases h
    | ub => rw [h1] at h; cases h
  | _, .transp A, l, h => by
    unfold locate at h
    cases h1 : locate ρ A with
    | ok l' =>
      have ih := locate_root A l' h1
      rw [h1] at h; simp only [Outcome.bind] at h
      cases h
      exact ih
    | abort => rw [h1] at h; cases h
    | ub => rw [h1] at h; cases h
  | _, .sliceM A _ _ _ _, l, h => by
    unfold locate at h
    cases h1 : locate ρ A with
    | ok l' =>
      have ih := locate_root A l' h1
      rw [h1] at h; simp only [Outcome.bind] at h
      split at h
      · split at h <;> cases h
        exact ih
      · cases h
    | abort => rw [h1] at h; cases h
    | ub => rw [h1] at h; cases h
  | _, .asCol a, l, h => by
    unfold locate at h
    cases h1 : locate ρ a with
    | ok l' =>
      have ih := locate_root a l' h1
      rw [h1] at h; simp only [Outcome.bind] at h
      split at h <;> cases h
      exact ih
    | abort => rw [h1] at h; cases h
    | ub => rw [h1] at h; cases h
  | _, .asRow a, l, h => by
    unfold locate at h
    cases h1 : locate ρ a with
    | ok l' =>
      have ih := locate_root a l' h1
      rw [h1] at h; simp only [Outcome.bind] at h
      split at h <;> cases h
      exact ih
    | abort => rw [h1] at h; cases h
    | ub => rw [h1] at h; cases h
  | _, .lit _, _, h => by cases h
  | _, .dot _ _, _, h => by cases h
  | _, .onesV _ _ _, _, h => by cases h
  | _, .convV _ _, _, h => by cases h
  | _, .binV _ _ _, _, h => by cases h
  | _, .negV _, _, h => by cases h
  | _, .scaV _ _ _, _, h => by cases h
  | _, .onesOpV _ _ _, _, h => by cases h
  | _, .cross _ _, _, h => by cases h
  | _, .mulMV _ _, _, h => by cases h
  | _, .mulVM _ _, _, h => by cases h
  | _, .diagMulV _ _, _, h => by cases h
  | _, .onesM _ _ _ _ _, _, h => by cases h
  | _, .identM _ _ _ _, _, h => by cases h
  | _, .convM _ _ _, _, h => by cases h
  | _, .binM _ _ _, _, h => by cases h
  | _, .negM _, _, h => by cases h
  | _, .scaM _ _ _, _, h => by cases h
  | _, .onesOpM _ _ _, _, h => by cases h
  | _, .identOpM _ _ _, _, h => by cases h
  | _, .mulMM _ _, _, h => by cases h
  | _, .mulMD _ _, _, h => by cases h
  | _, .mulDM _ _, _, h => by cases h

theorem locCells_root {k : Knd} (l : CLoc k) (c : Root × (Nat × Nat)) (h : c ∈ locCells l) :
    c.1 = CLoc.root l := by
  cases k with
  | s => simp only [locCells, List.mem_singleton] at h; rw [h]; rfl
  | v =>
    simp only [locCells, List.mem_map] at h
    obtain ⟨i, _, rfl⟩ := h; rfl
  | m =>
    simp only [locCells, List.mem_flatMap, List.mem_map] at h
    obtain ⟨i, _, j, _, rfl⟩ := h; rfl

theorem viewCells_vars {ρ : CEnv K} {k : Knd} (e : Ex K k) (c : Root × (Nat × Nat))
    (h : c ∈ viewCells ρ e) : c.1 ∈ vars e := by
  unfold viewCells at h
  cases hl : locate ρ e with
  | ok l =>
    rw [hl] at h
    rw [locCells_root l c h]
    exact locate_root e l hl
  | abort => rw [hl] at h; simp at h
  | ub => rw [hl] at h; simp at h

theorem foot_view (ρ : CEnv K) : {k : Knd} → (e : Ex K k) → isView e = true → foot ρ e = viewCells ρ e
  | _, .varV i, _ => rfl
  | _, .varM i, _ => rfl
  | _, .idx a i, h => if_pos h
  | _, .el A i j, h => if_pos h
  | _, .sliceV a _ _, h => if_pos h
  | _, .row A i, h => if_pos h
  | _, .diagS A, h => if_pos h
  | _, .transp A, h => if_pos h
  | _, .sliceM A _ _ _ _, h => if_pos h
  | _, .asCol a, h => if_pos h
  | _, .asRow a, h => if_pos h

theorem foot_vars (ρ : CEnv K) {k : Knd} (e : Ex K k) (c : Root × (Nat × Nat))
    (h : c ∈ foot ρ e) : c.1 ∈ vars e := by
  induction e with
  | lit _ => simp [foot] at h
  | varV i => exact viewCells_vars _ c h
  | varM i => exact viewCells_vars _ c h
  | idx a i ih => unfold foot at h; split at h; exacts [viewCells_vars _ c h, ih h]
  | el a i j ih => unfold foot at h; split at h; exacts [viewCells_vars _ c h, ih h]
  | sliceV a s l ih => unfold foot at h; split at h; exacts [viewCells_vars _ c h, ih h]
  | row a i ih => unfold foot at h; split at h; exacts [viewCells_vars _ c h, ih h]
  | diagS a ih => unfold foot at h; split at h; exacts [viewCells_vars _ c h, ih h]
  | transp a ih => unfold foot at h; split at h; exacts [viewCells_vars _ c h, ih h]
  | sliceM a _ _ _ _ ih => unfold foot at h; split at h; exacts [viewCells_vars _ c h, ih h]
  | asCol a ih => unfold foot at h; split at h; exacts [viewCells_vars _ c h, ih h]
  | asRow a ih => unfold foot at h; split at h; exacts [viewCells_vars _ c h, ih h]
  | onesV _ _ _ ih => exact ih h
  | convV _ _ ih => exact ih h
  | negV _ ih => exact ih h
  | onesM _ _ _ _ _ ih => exact ih h
  | identM _ _ _ _ ih => exact ih h
  | convM _ _ _ ih => exact ih h
  | negM _ ih => exact ih h
  | _ =>
    rename_i ih1 ih2
    simp only [foot, vars, List.mem_append] at h ⊢
    exact h.imp (fun h => ih1 h) (fun h => ih2 h)

theorem foot_congr {ρ σ : CEnv K} {k : Knd} (e : Ex K k)
    (h : ∀ r ∈ vars e, ρ.shapeOf r = σ.shapeOf r) : foot ρ e = foot σ e := by
  have view : ∀ {k : Knd} (e : Ex K k), (∀ r ∈ vars e, ρ.shapeOf r = σ.shapeOf r) →
      viewCells ρ e = viewCells σ e := fun e h => by unfold viewCells; rw [locate_congr e h]
  induction e with
  | lit _ => rfl
  | varV i => exact view _ h
  | varM i => exact view _ h
  | idx a i ih => unfold foot; rw [view _ h, ih h]
  | el a i j ih => unfold foot; rw [view _ h, ih h]
  | sliceV a s l ih => unfold foot; rw [view _ h, ih h]
  | row a i ih => unfold foot; rw [view _ h, ih h]
  | diagS a ih => unfold foot; rw [view _ h, ih h]
  | transp a ih => unfold foot; rw [view _ h, ih h]
  | sliceM a _ _ _ _ ih => unfold foot; rw [view _ h, ih h]
  | asCol a ih => unfold foot; rw [view _ h, ih h]
  | asRow a ih => unfold foot; rw [view _ h, ih h]
  | onesV _ _ _ ih => exact ih h
  | convV _ _ ih => exact ih h
  | negV _ ih => exact ih h
  | onesM _ _ _ _ _ ih => exact ih h
  | identM _ _ _ _ ih => exact ih h
  | convM _ _ _ ih => exact ih h
  | negM _ ih => exact ih h
  | _ =>
    rename_i ih1 ih2
    simp only [vars, List.mem_append] at h
    unfold foot
    rw [ih1 (fun r hr => h r (.inl hr)), ih2 (fun r hr => h r (.inr hr))]

/-- same sizes, same cells inside -/
structure VEq (b b' : VB K) : Prop where
  S : b.S = b'.S
  n : b.n = b'.n
  cell : ∀ i, i < b.n → b.cell i = b'.cell i
structure MEq (b b' : MB K) : Prop where
  hR : b.R = b'.R
  hC : b.C = b'.C
  r : b.r = b'.r
  c : b.c = b'.c
  cell : ∀ i j, i < b.r → j < b.c → b.cell i j = b'.cell i j
def CEq : {k : Knd} → CVal K k → CVal K k → Prop
  | .s => Eq
  | .v => VEq
  | .m => MEq

theorem VEq.rfl' (b : VB K) : VEq b b := ⟨rfl, rfl, fun _ _ => rfl⟩
theorem MEq.rfl' (b : MB K) : MEq b b := ⟨rfl, rfl, rfl, rfl, fun _ _ _ _ => rfl⟩
theorem CEq.rfl' {k : Knd} (b : CVal K k) : CEq b b := by
  cases k with
  | s => exact Eq.refl _
  | v => exact VEq.rfl' _
  | m => exact MEq.rfl' _

theorem VEq.get {b b' : VB K} (h : VEq b b') : b.get = b'.get := by
  funext i
  unfold VB.get
  rw [← h.n]
  split
  · rename_i hi; rw [h.cell i hi]
  · rfl
theorem MEq.get {b b' : MB K} (h : MEq b b') : b.get = b'.get := by
  funext i j
  unfold MB.get
  rw [← h.r, ← h.c]
  split
  · rename_i hi; rw [h.cell i j hi.1 hi.2]
  · rfl

theorem ORel.eq {α β : Type} {P : α → α → Prop} {x y : Outcome α} {f g : α → Outcome β}
    (h : ORel P x y) (hf : ∀ a b, P a b → f a = g b) : x.bind f = y.bind g := by
  cases h with
  | ok h => exact hf _ _ h
  | abort => rfl
  | ub => rfl

theorem ORel.refl {α : Type} {P : α → α → Prop} (hP : ∀ a, P a a) (x : Outcome α) : ORel P x x := by
  cases x with
  | ok a => exact .ok (hP a)
  | abort => exact .abort
  | ub => exact .ub

section ops
variable [Zero K] [One K] [Add K] [Sub K] [Mul K] [Div K] [Neg K]
variable {a a' b b' : VB K} {A A' B B' : MB K}

theorem dotB_congr (h : VEq a a') (h' : VEq b b') : dotB a b = dotB a' b' := by
  unfold dotB; rw [h.S, h.n, h.get, h'.S, h'.n, h'.get]
theorem idxB_congr (h : VEq a a') (i : Int) : idxB a i = idxB a' i := by
  unfold idxB; rw [h.get]
theorem elB_congr (h : MEq A A') (i j : Int) : elB A i j = elB A' i j := by
  unfold elB; rw [h.get]
theorem assignV_congr (v : VB K) (h : VEq a a') : assignV v a = assignV v a' := by
  unfold assignV; rw [h.S, h.n, h.get]
theorem assignM_congr (v : MB K) (h : MEq A A') : assignM v A = assignM v A' := by
  unfold assignM; rw [h.hR, h.hC, h.r, h.c, h.get]
theorem convVB_congr (S : Int) (h : VEq a a') : convVB S a = convVB S a' := by
  unfold convVB; rw [h.n]; simp only [assignV_congr _ h]
theorem convMB_congr (R C : Int) (h : MEq A A') : convMB R C A = convMB R C A' := by
  unfold convMB; rw [h.r, h.c]; simp only [assignM_congr _ h]
theorem vpairwise_congr (o : BinV) (h : VEq a a') (h' : VEq b b') :
    vpairwise o a b = vpairwise o a' b' := by
  unfold vpairwise; rw [h.S, h.n, h.get, h'.S, h'.n, h'.get]
theorem applyScalarV_congr (o : Sca) (h : VEq a a') (s : K) :
    applyScalarV o a s = applyScalarV o a' s := by
  unfold applyScalarV; rw [h.S, h.n, h.get]
theorem vnegate_congr (h : VEq a a') : vnegate a = vnegate a' := by
  unfold vnegate; rw [h.S, h.n, applyScalarV_congr _ h]
theorem scalarsV_congr (o : Mode) (h : VEq a a') (s : K) : scalarsV o a s = scalarsV o a' s := by
  unfold scalarsV; rw [h.S, h.n, h.get]
theorem crossB_congr (h : VEq a a') (h' : VEq b b') : crossB a b = crossB a' b' := by
  unfold crossB; rw [h.get, h'.get]
theorem row_eqv (h : MEq A A') (i : Nat) : ORel VEq (A.row i) (A'.row i) := by
  unfold MB.row
  rw [← h.r]
  split
  · rename_i hi; exact .ok ⟨h.hC, h.c, fun j hj => h.cell i j hi hj⟩
  · exact .ub
theorem T_eqv (h : MEq A A') : MEq A.T A'.T :=
  ⟨h.hC, h.hR, h.c, h.r, fun i j hi hj => h.cell j i hj hi⟩
theorem matVec_congr (h : MEq A A') (h' : VEq b b') : matVec A b = matVec A' b' := by
  have : ∀ i, ((A.row i).bind fun row => dotB row b) = (A'.row i).bind fun row => dotB row b' :=
    fun i => (row_eqv h i).eq fun _ _ hr => dotB_congr hr h'
  unfold matVec; rw [h.hR, h.hC, h.r, h.c, h'.S, h'.n]; simp only [this]
theorem vecMat_congr (h' : VEq b b') (h : MEq A A') : vecMat b A = vecMat b' A' := by
  have : ∀ i, ((A.T.row i).bind fun row => dotB b row) = (A'.T.row i).bind fun row => dotB b' row :=
    fun i => (row_eqv (T_eqv h) i).eq fun _ _ hr => dotB_congr h' hr
  unfold vecMat; rw [h.hR, h.hC, h.r, h.c, h'.S, h'.n]; simp only [this]
theorem diagVec_congr (h : VEq a a') (h' : VEq b b') : diagVec a b = diagVec a' b' := by
  unfold diagVec; rw [h.S, convVB_congr _ h]
  simp only [vpairwise_congr _ (VEq.rfl' _) h']
theorem mpairwise_congr (o : BinM) (h : MEq A A') (h' : MEq B B') :
    mpairwise o A B = mpairwise o A' B' := by
  unfold mpairwise; rw [h.hR, h.hC, h.r, h.c, h.get, h'.hR, h'.hC, h'.r, h'.c, h'.get]
theorem applyScalarM_congr (o : Sca) (h : MEq A A') (s : K) :
    applyScalarM o A s = applyScalarM o A' s := by
  unfold applyScalarM; rw [h.hR, h.hC, h.r, h.c, h.get]
theorem mnegate_congr (h : MEq A A') : mnegate A = mnegate A' := by
  unfold mnegate; rw [h.hR, h.hC, h.r, h.c, applyScalarM_congr _ h]
theorem matMat_congr (h : MEq A A') (h' : MEq B B') : matMat A B = matMat A' B' := by
  have : ∀ i j, ((A.row i).bind fun row => (B.T.row j).bind fun col => dotB row col) =
      ((A'.row i).bind fun row => (B'.T.row j).bind fun col => dotB row col) :=
    fun i j => (row_eqv h i).eq fun _ _ hr => (row_eqv (T_eqv h') j).eq fun _ _ hc => dotB_congr hr hc
  unfold matMat; rw [h.hR, h.hC, h.r, h.c, h'.hR, h'.hC, h'.r, h'.c]; simp only [this]
theorem matDiag_congr (h : MEq A A') (h' : VEq b b') : matDiag A b = matDiag A' b' := by
  unfold matDiag; rw [h.hR, h.hC, h.r, h.c, h.get, h'.S, h'.n, h'.get]
theorem diagMat_congr (h' : VEq b b') (h : MEq A A') : diagMat b A = diagMat b' A' := by
  unfold diagMat; rw [h.hR, h.hC, h.r, h.c, h.get, h'.S, h'.n, h'.get]
theorem scalarsM_congr (o : Mode) (h : MEq A A') (s : K) : scalarsM o A s = scalarsM o A' s := by
  unfold scalarsM; rw [h.hR, h.hC, h.r, h.c, h.get]
theorem addIdent_congr (o : Mode) (h : MEq A A') (s : K) : addIdent o A s = addIdent o A' s := by
  unfold addIdent; rw [h.hR, h.hC, h.r, h.c, h.get]

end ops

/-- the value of a view in terms of the cells it refers to -/
def VR (ρ : CEnv K) : {k : Knd} → Outcome (CLoc k) → Outcome (CVal K k) → Prop
  | .s, o, x => match o with
    | .ok l => x = ρ.read l.1 l.2
    | .abort => x = .abort
    | .ub => x = .ub
  | .v, o, x => match o with
    | .ok l => x = .ok ⟨l.S, l.n, fun i => ρ.cellOf (VL.root l) (VL.cell l i)⟩
    | .abort => x = .abort
    | .ub => x = .ub
  | .m, o, x => match o with
    | .ok l => x = .ok ⟨l.R, l.C, l.r, l.c, fun i j => ρ.cellOf (ML.root l) (ML.cell l i j)⟩
    | .abort => x = .abort
    | .ub => x = .ub

theorem VR.elim {k : Knd} {ρ : CEnv K} {o : Outcome (CLoc k)} {x : Outcome (CVal K k)} (h : VR ρ o x)
    {k' : Knd} (f : CLoc k → Outcome (CLoc k')) (g : CVal K k → Outcome (CVal K k'))
    (hok : ∀ l, o = .ok l → VR ρ (f l) (x.bind g)) : VR ρ (o.bind f) (x.bind g) := by
  cases o with
  | ok l => exact hok l rfl
  | abort => cases k <;> (cases h; cases k' <;> rfl)
  | ub => cases k <;> (cases h; cases k' <;> rfl)

end TooN.Expr
