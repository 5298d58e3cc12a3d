import Verif.Spec.Param
import Verif.Model.Prog
/-!
# Relational parametricity of expression and program execution
-/
set_option linter.unusedSectionVars false
set_option linter.unusedSimpArgs false
namespace TooN.Expr

variable {K K' : Type} (R : K → K' → Prop)

/-- related outcomes -/
inductive ORel {α β : Type} (P : α → β → Prop) : Outcome α → Outcome β → Prop
  | ok {a b} : P a b → ORel P (.ok a) (.ok b)
  | abort : ORel P .abort .abort
  | ub : ORel P .ub .ub

theorem ORel.bind {α β γ δ : Type} {P : α → β → Prop} {Q : γ → δ → Prop} {x : Outcome α}
    {y : Outcome β} {f : α → Outcome γ} {g : β → Outcome δ} (h : ORel P x y)
    (hf : ∀ a b, P a b → ORel Q (f a) (g b)) : ORel Q (x.bind f) (y.bind g) := by
  cases h with
  | ok h => exact hf _ _ h
  | abort => exact .abort
  | ub => exact .ub

theorem ORel.bindEq {α γ δ : Type} {Q : γ → δ → Prop} (x : Outcome α)
    {f : α → Outcome γ} {g : α → Outcome δ} (hf : ∀ a, ORel Q (f a) (g a)) :
    ORel Q (x.bind f) (x.bind g) := by
  cases x with
  | ok a => exact hf a
  | abort => exact .abort
  | ub => exact .ub

theorem ORel.forO {α β : Type} {P : α → β → Prop} (n : Nat) {f : Nat → α → Outcome α}
    {g : Nat → β → Outcome β} (hf : ∀ i a b, P a b → ORel P (f i a) (g i b)) {a : α} {b : β}
    (h : P a b) : ORel P (Expr.forO n f a) (Expr.forO n g b) := by
  induction n with
  | zero => exact .ok h
  | succ n ih => exact ih.bind (hf n)

/-- related vectors: same sizes, related cells -/
structure VRel (b : VB K) (b' : VB K') : Prop where
  S : b.S = b'.S
  n : b.n = b'.n
  cell : ∀ i, Option.Rel R (b.cell i) (b'.cell i)
structure MRel (b : MB K) (b' : MB K') : Prop where
  hR : b.R = b'.R
  hC : b.C = b'.C
  r : b.r = b'.r
  c : b.c = b'.c
  cell : ∀ i j, Option.Rel R (b.cell i j) (b'.cell i j)
/-- related objects -/
def CRel : {k : Knd} → CVal K k → CVal K' k → Prop
  | .s => R
  | .v => VRel R
  | .m => MRel R
/-- related environments -/
structure ERel (ρ : CEnv K) (ρ' : CEnv K') : Prop where
  v : ∀ i, Option.Rel (VRel R) (ρ.v i) (ρ'.v i)
  m : ∀ i, Option.Rel (MRel R) (ρ.m i) (ρ'.m i)

variable {R}

theorem VRel.get {b : VB K} {b' : VB K'} (h : VRel R b b') (i : Nat) : ORel R (b.get i) (b'.get i) := by
  unfold VB.get
  rw [h.n]
  split
  · have := h.cell i
    generalize b.cell i = o, b'.cell i = o' at this
    cases this with
    | some h => exact .ok h
    | none => exact .ub
  · exact .ub
theorem VRel.set {b : VB K} {b' : VB K'} (h : VRel R b b') (i : Nat) {x : K} {y : K'} (hx : R x y) :
    ORel (VRel R) (b.set i x) (b'.set i y) := by
  unfold VB.set
  rw [h.n]
  split
  · refine .ok ⟨h.S, rfl, fun j => ?_⟩
    dsimp only
    split
    · exact .some hx
    · exact h.cell j
  · exact .ub
theorem MRel.get {b : MB K} {b' : MB K'} (h : MRel R b b') (i j : Nat) :
    ORel R (b.get i j) (b'.get i j) := by
  unfold MB.get
  rw [h.r, h.c]
  split
  · have := h.cell i j
    generalize b.cell i j = o, b'.cell i j = o' at this
    cases this with
    | some h => exact .ok h
    | none => exact .ub
  · exact .ub
theorem MRel.set {b : MB K} {b' : MB K'} (h : MRel R b b') (i j : Nat) {x : K} {y : K'} (hx : R x y) :
    ORel (MRel R) (b.set i j x) (b'.set i j y) := by
  unfold MB.set
  rw [h.r, h.c]
  split
  · refine .ok ⟨h.hR, h.hC, rfl, rfl, fun i' j' => ?_⟩
    dsimp only
    split
    · exact .some hx
    · exact h.cell i' j'
  · exact .ub

theorem storeV_rel {n n' : Nat} (hn : n = n') {f : Nat → Outcome K} {g : Nat → Outcome K'}
    (hf : ∀ i, ORel R (f i) (g i)) {b : VB K} {b' : VB K'} (h : VRel R b b') :
    ORel (VRel R) (storeV n f b) (storeV n' g b') := by
  subst hn
  exact ORel.forO n (fun i a b hab => (hf i).bind fun x y hxy => hab.set i hxy) h
theorem storeM_rel {r c r' c' : Nat} (hr : r = r') (hc : c = c') {f : Nat → Nat → Outcome K}
    {g : Nat → Nat → Outcome K'} (hf : ∀ i j, ORel R (f i j) (g i j)) {b : MB K} {b' : MB K'}
    (h : MRel R b b') : ORel (MRel R) (storeM r c f b) (storeM r' c' g b') := by
  subst hr; subst hc
  exact ORel.forO r (fun i a b hab => ORel.forO c (fun j a b hab =>
    (hf i j).bind fun x y hxy => hab.set i j hxy) hab) h

theorem allocV_rel (S : Int) (n : Nat) : ORel (VRel R) (allocV S n) (allocV S n) := by
  unfold allocV
  split
  · exact .ub
  · exact .ok ⟨rfl, rfl, fun _ => .none⟩
theorem allocM_rel (S C : Int) (r c : Nat) : ORel (MRel R) (allocM S C r c) (allocM S C r c) :=
  .ok ⟨rfl, rfl, rfl, rfl, fun _ _ => .none⟩

theorem tryResize_rel {b : VB K} {b' : VB K'} (h : VRel R b b') (n : Nat) :
    ORel (VRel R) (tryResize b n) (tryResize b' n) := by
  unfold tryResize
  rw [h.S]
  split
  · split
    · exact .ub
    · refine .ok ⟨rfl, rfl, fun i => ?_⟩
      dsimp only
      rw [h.n]
      split
      · exact h.cell i
      · exact .none
  · exact .ok h

theorem assignV_rel {v w : VB K} {v' w' : VB K'} (hv : VRel R v v') (hw : VRel R w w') :
    ORel (VRel R) (assignV v w) (assignV v' w') := by
  unfold assignV
  rw [← hw.n]
  refine (tryResize_rel hv _).bind fun a b hab => ?_
  rw [hab.S, hab.n, hw.S]
  exact ORel.bindEq _ fun _ => storeV_rel rfl (fun i => hw.get i) hab
theorem assignM_rel {v w : MB K} {v' w' : MB K'} (hv : MRel R v v') (hw : MRel R w w') :
    ORel (MRel R) (assignM v w) (assignM v' w') := by
  unfold assignM
  rw [hw.r, hw.c, hw.hR, hw.hC, hv.r, hv.c, hv.hR, hv.hC]
  exact ORel.bindEq _ fun _ => ORel.bindEq _ fun _ => storeM_rel rfl rfl (fun i j => hw.get i j) hv
theorem convVB_rel {v : VB K} {v' : VB K'} (hv : VRel R v v') (S : Int) :
    ORel (VRel R) (convVB S v) (convVB S v') := by
  unfold convVB
  rw [hv.n]
  exact (allocV_rel (R := R) _ _).bind fun a b hab => assignV_rel hab hv
theorem convMB_rel {v : MB K} {v' : MB K'} (hv : MRel R v v') (S C : Int) :
    ORel (MRel R) (convMB S C v) (convMB S C v') := by
  unfold convMB
  rw [hv.r, hv.c]
  exact (allocM_rel (R := R) _ _ _ _).bind fun a b hab => assignM_rel hab hv
theorem row_rel {v : MB K} {v' : MB K'} (hv : MRel R v v') (i : Nat) :
    ORel (VRel R) (v.row i) (v'.row i) := by
  unfold MB.row
  rw [hv.r]
  split
  · exact .ok ⟨hv.hC, hv.c, fun j => hv.cell i j⟩
  · exact .ub
theorem T_rel {v : MB K} {v' : MB K'} (hv : MRel R v v') : MRel R v.T v'.T :=
  ⟨hv.hC, hv.hR, hv.c, hv.r, fun i j => hv.cell j i⟩

section ops
variable [Zero K] [One K] [Add K] [Sub K] [Mul K] [Div K] [Neg K]
  [Zero K'] [One K'] [Add K'] [Sub K'] [Mul K'] [Div K'] [Neg K']
variable (h : Respects R)
include h

theorem opV_rel (o : BinV) {x y : K} {x' y' : K'} (hx : R x x') (hy : R y y') :
    R (opV o x y) (opV o x' y') := by
  cases o
  · exact h.add hx hy
  · exact h.sub hx hy
  · exact h.mul hx hy
theorem opM_rel (o : BinM) {x y : K} {x' y' : K'} (hx : R x x') (hy : R y y') :
    R (opM o x y) (opM o x' y') := by
  cases o
  · exact h.add hx hy
  · exact h.sub hx hy

theorem vpairwise_rel (o : BinV) {a b : VB K} {a' b' : VB K'} (ha : VRel R a a') (hb : VRel R b b') :
    ORel (VRel R) (vpairwise o a b) (vpairwise o a' b') := by
  unfold vpairwise
  rw [ha.S, hb.S, ha.n, hb.n]
  exact ORel.bindEq _ fun _ => (allocV_rel (R := R) _ _).bind fun r r' hr => storeV_rel hr.n (fun i =>
    (ha.get i).bind fun x y hx => (hb.get i).bind fun x y hy => .ok (opV_rel h o hx hy)) hr

theorem applyScalarV_rel (o : Sca) {a : VB K} {a' : VB K'} (ha : VRel R a a') {s : K} {s' : K'}
    (hs : R s s') : ORel (VRel R) (applyScalarV o a s) (applyScalarV o a' s') := by
  unfold applyScalarV
  rw [ha.S, ha.n]
  refine (allocV_rel (R := R) _ _).bind fun r r' hr => storeV_rel hr.n (fun i =>
    (ha.get i).bind fun x y hx => .ok ?_) hr
  cases o
  · exact h.mul hx hs
  · exact h.div hx hs
  · exact h.mul hs hx

theorem vnegate_rel {a : VB K} {a' : VB K'} (ha : VRel R a a') :
    ORel (VRel R) (vnegate a) (vnegate a') := by
  unfold vnegate
  rw [ha.S, ha.n]
  exact (allocV_rel (R := R) _ _).bind fun r r' hr => (applyScalarV_rel h .mul ha (h.neg h.one)).bind
    fun t t' ht => assignV_rel hr ht

theorem dotB_rel {a b : VB K} {a' b' : VB K'} (ha : VRel R a a') (hb : VRel R b b') :
    ORel R (dotB a b) (dotB a' b') := by
  unfold dotB
  rw [ha.S, hb.S, ha.n, hb.n]
  exact ORel.bindEq _ fun _ => ORel.forO _ (fun i s s' hs => (ha.get i).bind fun x y hx =>
    (hb.get i).bind fun x y hy => .ok (h.add hs (h.mul hx hy))) h.zero

theorem crossB_rel {a b : VB K} {a' b' : VB K'} (ha : VRel R a a') (hb : VRel R b b') :
    ORel (VRel R) (crossB a b) (crossB a' b') := by
  unfold crossB
  refine (allocV_rel (R := R) _ _).bind fun r r' hr => (ha.get 0).bind fun a0 a0' ha0 =>
    (ha.get 1).bind fun a1 a1' ha1 => (ha.get 2).bind fun a2 a2' ha2 => (hb.get 0).bind
    fun b0 b0' hb0 => (hb.get 1).bind fun b1 b1' hb1 => (hb.get 2).bind fun b2 b2' hb2 => ?_
  refine (hr.set 0 ?_).bind fun r r' hr => (hr.set 1 ?_).bind fun r r' hr => hr.set 2 ?_
  · exact h.sub (h.mul ha1 hb2) (h.mul ha2 hb1)
  · exact h.sub (h.mul ha2 hb0) (h.mul ha0 hb2)
  · exact h.sub (h.mul ha0 hb1) (h.mul ha1 hb0)

theorem onesVB_rel (S : Int) (n : Nat) {s : K} {s' : K'} (hs : R s s') :
    ORel (VRel R) (onesVB S n s) (onesVB S n s') :=
  (allocV_rel (R := R) _ _).bind fun _ _ hr => storeV_rel hr.n (fun _ => .ok hs) hr

theorem mode_rel (o : Mode) {s x : K} {s' x' : K'} (hs : R s s') (hx : R x x') :
    R (match o with | .add => s + x | .rsub => -s + x | .lsub => s - x)
      (match o with | .add => s' + x' | .rsub => -s' + x' | .lsub => s' - x') := by
  cases o
  · exact h.add hs hx
  · exact h.add (h.neg hs) hx
  · exact h.sub hs hx

theorem scalarsV_rel (o : Mode) {a : VB K} {a' : VB K'} (ha : VRel R a a') {s : K} {s' : K'}
    (hs : R s s') : ORel (VRel R) (scalarsV o a s) (scalarsV o a' s') := by
  unfold scalarsV
  rw [ha.S, ha.n]
  exact (allocV_rel (R := R) _ _).bind fun r r' hr => storeV_rel rfl (fun i =>
    (ha.get i).bind fun x y hx => .ok (mode_rel h o hs hx)) hr

theorem matVec_rel {A : MB K} {A' : MB K'} (hA : MRel R A A') {a : VB K} {a' : VB K'}
    (ha : VRel R a a') : ORel (VRel R) (matVec A a) (matVec A' a') := by
  unfold matVec
  rw [hA.hR, hA.hC, hA.r, hA.c, ha.S, ha.n]
  exact ORel.bindEq _ fun _ => (allocV_rel (R := R) _ _).bind fun r r' hr => storeV_rel hr.n (fun i =>
    (row_rel hA i).bind fun x y hx => dotB_rel h hx ha) hr

theorem vecMat_rel {A : MB K} {A' : MB K'} (hA : MRel R A A') {a : VB K} {a' : VB K'}
    (ha : VRel R a a') : ORel (VRel R) (vecMat a A) (vecMat a' A') := by
  unfold vecMat
  rw [hA.hR, hA.hC, hA.r, hA.c, ha.S, ha.n]
  exact ORel.bindEq _ fun _ => (allocV_rel (R := R) _ _).bind fun r r' hr => storeV_rel hr.n (fun i =>
    (row_rel (T_rel hA) i).bind fun x y hx => dotB_rel h ha hx) hr

theorem diagVec_rel {a b : VB K} {a' b' : VB K'} (ha : VRel R a a') (hb : VRel R b b') :
    ORel (VRel R) (diagVec a b) (diagVec a' b') := by
  unfold diagVec
  rw [ha.S]
  exact (convVB_rel ha _).bind fun d d' hd => vpairwise_rel h .diagmult hd hb

omit h [Zero K] [One K] [Add K] [Sub K] [Mul K] [Div K] [Neg K]
  [Zero K'] [One K'] [Add K'] [Sub K'] [Mul K'] [Div K'] [Neg K'] in
theorem sliceB_rel {a : VB K} {a' : VB K'} (ha : VRel R a a') (s l : Int) :
    ORel (VRel R) (sliceB a s l) (sliceB a' s l) := by
  unfold sliceB
  rw [ha.S, ha.n]
  split
  · exact .ok ⟨rfl, rfl, fun i => ha.cell _⟩
  · exact .abort

omit h [Zero K] [One K] [Add K] [Sub K] [Mul K] [Div K] [Neg K]
  [Zero K'] [One K'] [Add K'] [Sub K'] [Mul K'] [Div K'] [Neg K'] in
theorem idxB_rel {a : VB K} {a' : VB K'} (ha : VRel R a a') (i : Int) :
    ORel R (idxB a i) (idxB a' i) := by
  unfold idxB
  split
  · exact ha.get _
  · exact .ub
omit h [Zero K] [One K] [Add K] [Sub K] [Mul K] [Div K] [Neg K]
  [Zero K'] [One K'] [Add K'] [Sub K'] [Mul K'] [Div K'] [Neg K'] in
theorem elB_rel {a : MB K} {a' : MB K'} (ha : MRel R a a') (i j : Int) :
    ORel R (elB a i j) (elB a' i j) := by
  unfold elB
  split
  · exact ha.get _ _
  · exact .ub
omit h [Zero K] [One K] [Add K] [Sub K] [Mul K] [Div K] [Neg K]
  [Zero K'] [One K'] [Add K'] [Sub K'] [Mul K'] [Div K'] [Neg K'] in
theorem rowB_rel {a : MB K} {a' : MB K'} (ha : MRel R a a') (i : Int) :
    ORel (VRel R) (rowB a i) (rowB a' i) := by
  unfold rowB
  split
  · exact row_rel ha _
  · exact .ub
omit h [Zero K] [One K] [Add K] [Sub K] [Mul K] [Div K] [Neg K]
  [Zero K'] [One K'] [Add K'] [Sub K'] [Mul K'] [Div K'] [Neg K'] in
theorem diagSB_rel {a : MB K} {a' : MB K'} (ha : MRel R a a') : VRel R (diagSB a) (diagSB a') :=
  ⟨by unfold diagSB; rw [ha.hR, ha.hC], by unfold diagSB; rw [ha.r, ha.c], fun i => ha.cell i i⟩
omit h [Zero K] [One K] [Add K] [Sub K] [Mul K] [Div K] [Neg K]
  [Zero K'] [One K'] [Add K'] [Sub K'] [Mul K'] [Div K'] [Neg K'] in
theorem sliceMB_rel {a : MB K} {a' : MB K'} (ha : MRel R a a') (rs cs rl cl : Int) :
    ORel (MRel R) (sliceMB a rs cs rl cl) (sliceMB a' rs cs rl cl) := by
  unfold sliceMB
  rw [ha.hR, ha.r, ha.hC, ha.c]
  split
  · split
    · exact .ok ⟨rfl, rfl, rfl, rfl, fun i j => ha.cell _ _⟩
    · exact .abort
  · exact .abort

theorem mpairwise_rel (o : BinM) {a b : MB K} {a' b' : MB K'} (ha : MRel R a a') (hb : MRel R b b') :
    ORel (MRel R) (mpairwise o a b) (mpairwise o a' b') := by
  unfold mpairwise
  rw [ha.hR, hb.hR, ha.hC, hb.hC, ha.r, ha.c, hb.r, hb.c]
  exact ORel.bindEq _ fun _ => ORel.bindEq _ fun _ => (allocM_rel (R := R) _ _ _ _).bind fun r r' hr =>
    storeM_rel hr.r hr.c (fun i j =>
    (ha.get i j).bind fun x y hx => (hb.get i j).bind fun x y hy => .ok (opM_rel h o hx hy)) hr

theorem applyScalarM_rel (o : Sca) {a : MB K} {a' : MB K'} (ha : MRel R a a') {s : K} {s' : K'}
    (hs : R s s') : ORel (MRel R) (applyScalarM o a s) (applyScalarM o a' s') := by
  unfold applyScalarM
  rw [ha.hR, ha.hC, ha.r, ha.c]
  refine (allocM_rel (R := R) _ _ _ _).bind fun r r' hr => storeM_rel hr.r hr.c (fun i j =>
    (ha.get i j).bind fun x y hx => .ok ?_) hr
  cases o
  · exact h.mul hx hs
  · exact h.div hx hs
  · exact h.mul hs hx

theorem mnegate_rel {a : MB K} {a' : MB K'} (ha : MRel R a a') :
    ORel (MRel R) (mnegate a) (mnegate a') := by
  unfold mnegate
  rw [ha.hR, ha.hC, ha.r, ha.c]
  exact (allocM_rel (R := R) _ _ _ _).bind fun r r' hr => (applyScalarM_rel h .mul ha (h.neg h.one)).bind
    fun t t' ht => assignM_rel hr ht

theorem matMat_rel {a b : MB K} {a' b' : MB K'} (ha : MRel R a a') (hb : MRel R b b') :
    ORel (MRel R) (matMat a b) (matMat a' b') := by
  unfold matMat
  rw [ha.hR, hb.hR, ha.hC, hb.hC, ha.r, ha.c, hb.r, hb.c]
  exact ORel.bindEq _ fun _ => (allocM_rel (R := R) _ _ _ _).bind fun r r' hr =>
    storeM_rel hr.r hr.c (fun i j => (row_rel ha i).bind fun x y hx =>
      (row_rel (T_rel hb) j).bind fun x y hy => dotB_rel h hx hy) hr

theorem matDiag_rel {A : MB K} {A' : MB K'} (hA : MRel R A A') {a : VB K} {a' : VB K'}
    (ha : VRel R a a') : ORel (MRel R) (matDiag A a) (matDiag A' a') := by
  unfold matDiag
  rw [hA.hR, hA.hC, hA.r, hA.c, ha.S, ha.n]
  refine ORel.bindEq _ fun _ => (allocM_rel (R := R) _ _ _ _).bind fun r r' hr => ?_
  rw [hr.c]
  refine ORel.forO _ (fun j s s' hs => (ha.get j).bind fun t t' ht => ?_) hr
  rw [hs.r]
  exact ORel.forO _ (fun i s s' hs => (hA.get i j).bind fun x y hx => hs.set i j (h.mul hx ht)) hs

theorem diagMat_rel {A : MB K} {A' : MB K'} (hA : MRel R A A') {a : VB K} {a' : VB K'}
    (ha : VRel R a a') : ORel (MRel R) (diagMat a A) (diagMat a' A') := by
  unfold diagMat
  rw [hA.hR, hA.hC, hA.r, hA.c, ha.S, ha.n]
  refine ORel.bindEq _ fun _ => (allocM_rel (R := R) _ _ _ _).bind fun r r' hr => ?_
  rw [hr.r]
  refine ORel.forO _ (fun i s s' hs => (ha.get i).bind fun t t' ht => ?_) hr
  rw [hs.c]
  exact ORel.forO _ (fun j s s' hs => (hA.get i j).bind fun x y hx => hs.set i j (h.mul ht hx)) hs

theorem onesMB_rel (S C : Int) (r c : Nat) {s : K} {s' : K'} (hs : R s s') :
    ORel (MRel R) (onesMB S C r c s) (onesMB S C r c s') :=
  (allocM_rel (R := R) _ _ _ _).bind fun _ _ hr => storeM_rel hr.r hr.c (fun _ _ => .ok hs) hr

theorem identEval_rel {A : MB K} {A' : MB K'} (hA : MRel R A A') {s : K} {s' : K'} (hs : R s s') :
    ORel (MRel R) (identEval s A) (identEval s' A') := by
  unfold identEval
  rw [hA.hR, hA.hC, hA.r, hA.c]
  refine ORel.bindEq _ fun _ => (storeM_rel rfl rfl (fun _ _ => .ok h.zero) hA).bind
    fun r r' hr => ?_
  rw [hr.r]
  exact ORel.forO _ (fun i s s' hs' => hs'.set i i hs) hr

theorem identMB_rel (S C : Int) (n : Nat) {s : K} {s' : K'} (hs : R s s') :
    ORel (MRel R) (identMB S C n s) (identMB S C n s') :=
  (allocM_rel (R := R) _ _ _ _).bind fun _ _ hr => identEval_rel h hr hs

theorem scalarsM_rel (o : Mode) {a : MB K} {a' : MB K'} (ha : MRel R a a') {s : K} {s' : K'}
    (hs : R s s') : ORel (MRel R) (scalarsM o a s) (scalarsM o a' s') := by
  unfold scalarsM
  rw [ha.hR, ha.hC, ha.r, ha.c]
  exact (allocM_rel (R := R) _ _ _ _).bind fun r r' hr => storeM_rel rfl rfl (fun i j =>
    (ha.get i j).bind fun x y hx => .ok (mode_rel h o hs hx)) hr

theorem addIdent_rel (o : Mode) {a : MB K} {a' : MB K'} (ha : MRel R a a') {s : K} {s' : K'}
    (hs : R s s') : ORel (MRel R) (addIdent o a s) (addIdent o a' s') := by
  unfold addIdent
  rw [ha.hR, ha.hC, ha.r, ha.c]
  refine ORel.bindEq _ fun _ => (allocM_rel (R := R) _ _ _ _).bind fun r r' hr =>
    (storeM_rel rfl rfl (fun i j => (ha.get i j).bind fun x y hx => .ok ?_) hr).bind
    fun m m' hm => ORel.forO _ (fun i t t' ht => (ht.get i i).bind fun x x' hx =>
      ht.set i i (h.add hx ?_)) hm
  · cases o
    · exact hx
    · exact hx
    · exact h.neg hx
  · cases o
    · exact hs
    · exact h.neg hs
    · exact hs

omit h [Zero K] [One K] [Add K] [Sub K] [Mul K] [Div K] [Neg K]
  [Zero K'] [One K'] [Add K'] [Sub K'] [Mul K'] [Div K'] [Neg K'] in
theorem asColB_rel {a : VB K} {a' : VB K'} (ha : VRel R a a') : ORel (MRel R) (asColB a) (asColB a') := by
  unfold asColB
  rw [ha.S, ha.n]
  split
  · exact .ub
  · exact .ok ⟨rfl, rfl, rfl, rfl, fun i _ => ha.cell i⟩
omit h [Zero K] [One K] [Add K] [Sub K] [Mul K] [Div K] [Neg K]
  [Zero K'] [One K'] [Add K'] [Sub K'] [Mul K'] [Div K'] [Neg K'] in
theorem asRowB_rel {a : VB K} {a' : VB K'} (ha : VRel R a a') : ORel (MRel R) (asRowB a) (asRowB a') := by
  unfold asRowB
  rw [ha.S, ha.n]
  split
  · exact .ub
  · exact .ok ⟨rfl, rfl, rfl, rfl, fun _ i => ha.cell i⟩

/-- Parametricity of execution. -/
theorem run_rel {f : K → K'} (hf : ∀ x, R x (f x)) {ρ : CEnv K} {ρ' : CEnv K'} (he : ERel R ρ ρ') :
    {k : Knd} → (e : Ex K k) → ORel (CRel R) (run ρ e) (run ρ' (e.map f))
  | _, .lit x => .ok (hf x)
  | _, .dot a b => ORel.bind (P := VRel R) (run_rel hf he a) fun _ _ ha =>
      ORel.bind (P := VRel R) (run_rel hf he b) fun _ _ hb => dotB_rel h ha hb
  | _, .idx a i => ORel.bind (P := VRel R) (run_rel hf he a) fun _ _ ha => idxB_rel ha i
  | _, .el a i j => ORel.bind (P := MRel R) (run_rel hf he a) fun _ _ ha => elB_rel ha i j
  | _, .varV i => by
      unfold Ex.map run
      have := he.v i
      generalize ρ.v i = o, ρ'.v i = o' at this
      cases this with
      | some h => exact .ok h
      | none => exact .abort
  | _, .onesV S n s => ORel.bind (P := R) (run_rel hf he s) fun _ _ hs => onesVB_rel h _ _ hs
  | _, .convV S a => ORel.bind (P := VRel R) (run_rel hf he a) fun _ _ ha => convVB_rel ha _
  | _, .binV o a b => ORel.bind (P := VRel R) (run_rel hf he a) fun _ _ ha =>
      ORel.bind (P := VRel R) (run_rel hf he b) fun _ _ hb => vpairwise_rel h o ha hb
  | _, .negV a => ORel.bind (P := VRel R) (run_rel hf he a) fun _ _ ha => vnegate_rel h ha
  | _, .scaV o a s => ORel.bind (P := VRel R) (run_rel hf he a) fun _ _ ha =>
      ORel.bind (P := R) (run_rel hf he s) fun _ _ hs => applyScalarV_rel h o ha hs
  | _, .onesOpV o a s => ORel.bind (P := VRel R) (run_rel hf he a) fun _ _ ha =>
      ORel.bind (P := R) (run_rel hf he s) fun _ _ hs => scalarsV_rel h o ha hs
  | _, .cross a b => ORel.bind (P := VRel R) (run_rel hf he a) fun _ _ ha =>
      ORel.bind (P := VRel R) (run_rel hf he b) fun _ _ hb => crossB_rel h ha hb
  | _, .mulMV A a => ORel.bind (P := MRel R) (run_rel hf he A) fun _ _ hA =>
      ORel.bind (P := VRel R) (run_rel hf he a) fun _ _ ha => matVec_rel h hA ha
  | _, .mulVM a A => ORel.bind (P := VRel R) (run_rel hf he a) fun _ _ ha =>
      ORel.bind (P := MRel R) (run_rel hf he A) fun _ _ hA => vecMat_rel h hA ha
  | _, .diagMulV a b => ORel.bind (P := VRel R) (run_rel hf he a) fun _ _ ha =>
      ORel.bind (P := VRel R) (run_rel hf he b) fun _ _ hb => diagVec_rel h ha hb
  | _, .sliceV a s l => ORel.bind (P := VRel R) (run_rel hf he a) fun _ _ ha => sliceB_rel ha s l
  | _, .row A i => ORel.bind (P := MRel R) (run_rel hf he A) fun _ _ hA => rowB_rel hA i
  | _, .diagS A => ORel.bind (P := MRel R) (run_rel hf he A) fun _ _ hA => .ok (diagSB_rel hA)
  | _, .varM i => by
      unfold Ex.map run
      have := he.m i
      generalize ρ.m i = o, ρ'.m i = o' at this
      cases this with
      | some h => exact .ok h
      | none => exact .abort
  | _, .onesM S C r c s => ORel.bind (P := R) (run_rel hf he s) fun _ _ hs => onesMB_rel h _ _ _ _ hs
  | _, .identM S C n s => ORel.bind (P := R) (run_rel hf he s) fun _ _ hs => identMB_rel h _ _ _ hs
  | _, .convM S C A => ORel.bind (P := MRel R) (run_rel hf he A) fun _ _ hA => convMB_rel hA _ _
  | _, .binM o a b => ORel.bind (P := MRel R) (run_rel hf he a) fun _ _ ha =>
      ORel.bind (P := MRel R) (run_rel hf he b) fun _ _ hb => mpairwise_rel h o ha hb
  | _, .negM a => ORel.bind (P := MRel R) (run_rel hf he a) fun _ _ ha => mnegate_rel h ha
  | _, .scaM o a s => ORel.bind (P := MRel R) (run_rel hf he a) fun _ _ ha =>
      ORel.bind (P := R) (run_rel hf he s) fun _ _ hs => applyScalarM_rel h o ha hs
  | _, .onesOpM o a s => ORel.bind (P := MRel R) (run_rel hf he a) fun _ _ ha =>
      ORel.bind (P := R) (run_rel hf he s) fun _ _ hs => scalarsM_rel h o ha hs
  | _, .identOpM o a s => ORel.bind (P := MRel R) (run_rel hf he a) fun _ _ ha =>
      ORel.bind (P := R) (run_rel hf he s) fun _ _ hs => addIdent_rel h o ha hs
  | _, .mulMM a b => ORel.bind (P := MRel R) (run_rel hf he a) fun _ _ ha =>
      ORel.bind (P := MRel R) (run_rel hf he b) fun _ _ hb => matMat_rel h ha hb
  | _, .mulMD A a => ORel.bind (P := MRel R) (run_rel hf he A) fun _ _ hA =>
      ORel.bind (P := VRel R) (run_rel hf he a) fun _ _ ha => matDiag_rel h hA ha
  | _, .mulDM a A => ORel.bind (P := VRel R) (run_rel hf he a) fun _ _ ha =>
      ORel.bind (P := MRel R) (run_rel hf he A) fun _ _ hA => diagMat_rel h hA ha
  | _, .transp A => ORel.bind (P := MRel R) (run_rel hf he A) fun _ _ hA => .ok (T_rel hA)
  | _, .sliceM A a b c d => ORel.bind (P := MRel R) (run_rel hf he A) fun _ _ hA =>
      sliceMB_rel hA a b c d
  | _, .asCol a => ORel.bind (P := VRel R) (run_rel hf he a) fun _ _ ha => asColB_rel ha
  | _, .asRow a => ORel.bind (P := VRel R) (run_rel hf he a) fun _ _ ha => asRowB_rel ha

end ops

/-! ## Compilation does not see the values -/

theorem comp_map (f : K → K') (Γ : TEnv) : {k : Knd} → (e : Ex K k) → comp Γ (e.map f) = comp Γ e
  | _, .lit x => rfl
  | _, .dot a b => by unfold Ex.map comp; rw [comp_map f Γ a, comp_map f Γ b]
  | _, .idx a i => by unfold Ex.map comp; rw [comp_map f Γ a]
  | _, .el a i j => by unfold Ex.map comp; rw [comp_map f Γ a]
  | _, .varV i => rfl
  | _, .onesV S n s => by unfold Ex.map comp; rw [comp_map f Γ s]
  | _, .convV S a => by unfold Ex.map comp; rw [comp_map f Γ a]
  | _, .binV o a b => by unfold Ex.map comp; rw [comp_map f Γ a, comp_map f Γ b]
  | _, .negV a => by unfold Ex.map comp; rw [comp_map f Γ a]
  | _, .scaV o a b => by unfold Ex.map comp; rw [comp_map f Γ a, comp_map f Γ b]
  | _, .onesOpV o a b => by unfold Ex.map comp; rw [comp_map f Γ a, comp_map f Γ b]
  | _, .cross a b => by unfold Ex.map comp; rw [comp_map f Γ a, comp_map f Γ b]
  | _, .mulMV a b => by unfold Ex.map comp; rw [comp_map f Γ a, comp_map f Γ b]
  | _, .mulVM a b => by unfold Ex.map comp; rw [comp_map f Γ a, comp_map f Γ b]
  | _, .diagMulV a b => by unfold Ex.map comp; rw [comp_map f Γ a, comp_map f Γ b]
  | _, .sliceV a s l => by unfold Ex.map comp; rw [comp_map f Γ a]
  | _, .row A i => by unfold Ex.map comp; rw [comp_map f Γ A]
  | _, .diagS A => by unfold Ex.map comp; rw [comp_map f Γ A]
  | _, .varM i => rfl
  | _, .onesM S C r c s => by unfold Ex.map comp; rw [comp_map f Γ s]
  | _, .identM S C n s => by unfold Ex.map comp; rw [comp_map f Γ s]
  | _, .convM S C A => by unfold Ex.map comp; rw [comp_map f Γ A]
  | _, .binM o a b => by unfold Ex.map comp; rw [comp_map f Γ a, comp_map f Γ b]
  | _, .negM a => by unfold Ex.map comp; rw [comp_map f Γ a]
  | _, .scaM o a b => by unfold Ex.map comp; rw [comp_map f Γ a, comp_map f Γ b]
  | _, .onesOpM o a b => by unfold Ex.map comp; rw [comp_map f Γ a, comp_map f Γ b]
  | _, .identOpM o a b => by unfold Ex.map comp; rw [comp_map f Γ a, comp_map f Γ b]
  | _, .mulMM a b => by unfold Ex.map comp; rw [comp_map f Γ a, comp_map f Γ b]
  | _, .mulMD a b => by unfold Ex.map comp; rw [comp_map f Γ a, comp_map f Γ b]
  | _, .mulDM a b => by unfold Ex.map comp; rw [comp_map f Γ a, comp_map f Γ b]
  | _, .transp A => by unfold Ex.map comp; rw [comp_map f Γ A]
  | _, .sliceM A _ _ _ _ => by unfold Ex.map comp; rw [comp_map f Γ A]
  | _, .asCol A => by unfold Ex.map comp; rw [comp_map f Γ A]
  | _, .asRow A => by unfold Ex.map comp; rw [comp_map f Γ A]

theorem isView_map (f : K → K') : {k : Knd} → (e : Ex K k) → isView (e.map f) = isView e
  | _, .varV _ => rfl
  | _, .varM _ => rfl
  | _, .idx a _ => isView_map f a
  | _, .el A _ _ => isView_map f A
  | _, .sliceV a _ _ => isView_map f a
  | _, .row A _ => isView_map f A
  | _, .diagS A => isView_map f A
  | _, .transp A => isView_map f A
  | _, .sliceM A _ _ _ _ => isView_map f A
  | _, .asCol a => isView_map f a
  | _, .asRow a => isView_map f a
  | _, .lit _ => rfl
  | _, .dot _ _ => rfl
  | _, .onesV _ _ _ => rfl
  | _, .convV _ _ => rfl
  | _, .binV _ _ _ => rfl
  | _, .negV _ => rfl
  | _, .scaV _ _ _ => rfl
  | _, .onesOpV _ _ _ => rfl
  | _, .cross _ _ => rfl
  | _, .mulMV _ _ => rfl
  | _, .mulVM _ _ => rfl
  | _, .diagMulV _ _ => rfl
  | _, .onesM _ _ _ _ _ => rfl
  | _, .identM _ _ _ _ => rfl
  | _, .convM _ _ _ => rfl
  | _, .binM _ _ _ => rfl
  | _, .negM _ => rfl
  | _, .scaM _ _ _ => rfl
  | _, .onesOpM _ _ _ => rfl
  | _, .identOpM _ _ _ => rfl
  | _, .mulMM _ _ => rfl
  | _, .mulMD _ _ => rfl
  | _, .mulDM _ _ => rfl

theorem compR_map (f : K → K') (Γ : TEnv) : {k : Knd} → (t : Ty k) → (r : Rhs K k) →
    compR Γ t (r.map f) = compR Γ t r
  | _, _, .eqS e => by unfold Rhs.map compR; dsimp only; rw [comp_map]
  | _, _, .updS _ e => by unfold Rhs.map compR; dsimp only; rw [comp_map]
  | _, _, .eqV e => by unfold Rhs.map compR; dsimp only; rw [comp_map]
  | _, _, .updV _ e => by unfold Rhs.map compR; dsimp only; rw [comp_map]
  | _, _, .scaV _ e => by unfold Rhs.map compR; dsimp only; rw [comp_map]
  | _, _, .onesV e => by unfold Rhs.map compR; dsimp only; rw [comp_map]
  | _, _, .onesUpdV _ e => by unfold Rhs.map compR; dsimp only; rw [comp_map]
  | _, _, .eqM e => by unfold Rhs.map compR; dsimp only; rw [comp_map]
  | _, _, .updM _ e => by unfold Rhs.map compR; dsimp only; rw [comp_map]
  | _, _, .scaM _ e => by unfold Rhs.map compR; dsimp only; rw [comp_map]
  | _, _, .onesM e => by unfold Rhs.map compR; dsimp only; rw [comp_map]
  | _, _, .onesUpdM _ e => by unfold Rhs.map compR; dsimp only; rw [comp_map]
  | _, _, .identM e => by unfold Rhs.map compR; dsimp only; rw [comp_map]
  | _, _, .identUpdM e => by unfold Rhs.map compR; dsimp only; rw [comp_map]

theorem compS_map (f : K → K') (Γ : TEnv) (s : Stmt K) : compS Γ (s.map f) = compS Γ s := by
  cases s with
  | declV i S e =>
    have := comp_map f Γ (.convV S e)
    unfold Ex.map at this
    unfold Stmt.map compS
    dsimp only
    rw [this]
  | declM i S C e =>
    have := comp_map f Γ (.convM S C e)
    unfold Ex.map at this
    unfold Stmt.map compS
    dsimp only
    rw [this]
  | asg L r =>
    unfold Stmt.map compS
    dsimp only
    rw [comp_map, isView_map]
    split
    · rfl
    · rw [compR_map]

theorem compP_map (f : K → K') (Γ : TEnv) (p : List (Stmt K)) :
    compP Γ (p.map (Stmt.map f)) = compP Γ p := by
  induction p generalizing Γ with
  | nil => rfl
  | cons s p ih =>
    unfold List.map compP
    rw [compS_map]
    congr 1
    funext Γ
    exact ih Γ

theorem types_rel {ρ : CEnv K} {ρ' : CEnv K'} (he : ERel R ρ ρ') : ρ.types = ρ'.types := by
  unfold CEnv.types
  congr 1
  · funext i
    have := he.v i
    generalize ρ.v i = o, ρ'.v i = o' at this
    cases this with
    | some h => exact congrArg some h.S
    | none => rfl
  · funext i
    have := he.m i
    generalize ρ.m i = o, ρ'.m i = o' at this
    cases this with
    | some h => exact congrArg some (Prod.ext h.hR h.hC)
    | none => rfl

/-! ## Programs -/

theorem locate_map {ρ : CEnv K} {ρ' : CEnv K'} (he : ERel R ρ ρ') (f : K → K') :
    {k : Knd} → (e : Ex K k) → locate ρ' (e.map f) = locate ρ e
  | _, .varV i => by
    unfold Ex.map locate
    have := he.v i
    generalize ρ.v i = o, ρ'.v i = o' at this
    cases this with
    | some h => dsimp only; rw [h.S, h.n]
    | none => rfl
  | _, .varM i => by
    unfold Ex.map locate
    have := he.m i
    generalize ρ.m i = o, ρ'.m i = o' at this
    cases this with
    | some h => dsimp only; rw [h.hR, h.hC, h.r, h.c]
    | none => rfl
  | _, .idx a _ => by unfold Ex.map locate; rw [locate_map he f a]
  | _, .el A _ _ => by unfold Ex.map locate; rw [locate_map he f A]
  | _, .sliceV a _ _ => by unfold Ex.map locate; rw [locate_map he f a]
  | _, .row A _ => by unfold Ex.map locate; rw [locate_map he f A]
  | _, .diagS A => by unfold Ex.map locate; rw [locate_map he f A]
  | _, .transp A => by unfold Ex.map locate; rw [locate_map he f A]
  | _, .sliceM A _ _ _ _ => by unfold Ex.map locate; rw [locate_map he f A]
  | _, .asCol a => by unfold Ex.map locate; rw [locate_map he f a]
  | _, .asRow a => by unfold Ex.map locate; rw [locate_map he f a]
  | _, .lit _ => rfl
  | _, .dot _ _ => rfl
  | _, .onesV _ _ _ => rfl
  | _, .convV _ _ => rfl
  | _, .binV _ _ _ => rfl
  | _, .negV _ => rfl
  | _, .scaV _ _ _ => rfl
  | _, .onesOpV _ _ _ => rfl
  | _, .cross _ _ => rfl
  | _, .mulMV _ _ => rfl
  | _, .mulVM _ _ => rfl
  | _, .diagMulV _ _ => rfl
  | _, .onesM _ _ _ _ _ => rfl
  | _, .identM _ _ _ _ => rfl
  | _, .convM _ _ _ => rfl
  | _, .binM _ _ _ => rfl
  | _, .negM _ => rfl
  | _, .scaM _ _ _ => rfl
  | _, .onesOpM _ _ _ => rfl
  | _, .identOpM _ _ _ => rfl
  | _, .mulMM _ _ => rfl
  | _, .mulMD _ _ => rfl
  | _, .mulDM _ _ => rfl

theorem read_rel {ρ : CEnv K} {ρ' : CEnv K'} (he : ERel R ρ ρ') (r : Root) (p : Nat × Nat) :
    ORel R (ρ.read r p) (ρ'.read r p) := by
  unfold CEnv.read
  cases r with
  | v i =>
    have := he.v i
    dsimp only
    generalize ρ.v i = o, ρ'.v i = o' at this
    cases this with
    | some h =>
      dsimp only
      split
      · exact h.get _
      · exact .ub
    | none => exact .ub
  | m i =>
    have := he.m i
    dsimp only
    generalize ρ.m i = o, ρ'.m i = o' at this
    cases this with
    | some h => exact h.get _ _
    | none => exact .ub

theorem setV_rel {ρ : CEnv K} {ρ' : CEnv K'} (he : ERel R ρ ρ') (i : Nat) {b : VB K} {b' : VB K'}
    (hb : VRel R b b') : ERel R { ρ with v := fun j => if j = i then some b else ρ.v j }
      { ρ' with v := fun j => if j = i then some b' else ρ'.v j } := by
  refine ⟨fun j => ?_, he.m⟩
  dsimp only
  split
  · exact .some hb
  · exact he.v j
theorem setM_rel {ρ : CEnv K} {ρ' : CEnv K'} (he : ERel R ρ ρ') (i : Nat) {b : MB K} {b' : MB K'}
    (hb : MRel R b b') : ERel R { ρ with m := fun j => if j = i then some b else ρ.m j }
      { ρ' with m := fun j => if j = i then some b' else ρ'.m j } := by
  refine ⟨he.v, fun j => ?_⟩
  dsimp only
  split
  · exact .some hb
  · exact he.m j

theorem write_rel {ρ : CEnv K} {ρ' : CEnv K'} (he : ERel R ρ ρ') (r : Root) (p : Nat × Nat) {x : K}
    {y : K'} (hx : R x y) : ORel (ERel R) (ρ.write r p x) (ρ'.write r p y) := by
  unfold CEnv.write
  cases r with
  | v i =>
    have := he.v i
    dsimp only
    generalize ρ.v i = o, ρ'.v i = o' at this
    cases this with
    | some h =>
      dsimp only
      split
      · exact (h.set _ hx).bind fun a b hab => .ok (setV_rel he i hab)
      · exact .ub
    | none => exact .ub
  | m i =>
    have := he.m i
    dsimp only
    generalize ρ.m i = o, ρ'.m i = o' at this
    cases this with
    | some h => exact (h.set _ _ hx).bind fun a b hab => .ok (setM_rel he i hab)
    | none => exact .ub

/-- related sources -/
inductive SrcVRel (R : K → K' → Prop) : SrcV K → SrcV K' → Prop
  | tmp {b b'} : VRel R b b' → SrcVRel R (.tmp b) (.tmp b')
  | live (l) : SrcVRel R (.live l) (.live l)
inductive SrcMRel (R : K → K' → Prop) : SrcM K → SrcM K' → Prop
  | tmp {b b'} : MRel R b b' → SrcMRel R (.tmp b) (.tmp b')
  | live (l) : SrcMRel R (.live l) (.live l)

theorem SrcVRel.eqs {s : SrcV K} {s' : SrcV K'} (h : SrcVRel R s s') : s.S = s'.S ∧ s.n = s'.n := by
  cases h with
  | tmp h => exact ⟨h.S, h.n⟩
  | live l => exact ⟨rfl, rfl⟩
theorem SrcMRel.eqs {s : SrcM K} {s' : SrcM K'} (h : SrcMRel R s s') :
    s.R = s'.R ∧ s.C = s'.C ∧ s.r = s'.r ∧ s.c = s'.c := by
  cases h with
  | tmp h => exact ⟨h.hR, h.hC, h.r, h.c⟩
  | live l => exact ⟨rfl, rfl, rfl, rfl⟩
theorem SrcVRel.get {s : SrcV K} {s' : SrcV K'} (h : SrcVRel R s s') {ρ : CEnv K} {ρ' : CEnv K'}
    (he : ERel R ρ ρ') (i : Nat) : ORel R (s.get ρ i) (s'.get ρ' i) := by
  cases h with
  | tmp h => exact h.get i
  | live l =>
    unfold SrcV.get
    dsimp only
    split
    · exact read_rel he _ _
    · exact .ub
theorem SrcMRel.get {s : SrcM K} {s' : SrcM K'} (h : SrcMRel R s s') {ρ : CEnv K} {ρ' : CEnv K'}
    (he : ERel R ρ ρ') (i j : Nat) : ORel R (s.get ρ i j) (s'.get ρ' i j) := by
  cases h with
  | tmp h => exact h.get i j
  | live l =>
    unfold SrcM.get
    dsimp only
    split
    · exact read_rel he _ _
    · exact .ub
theorem SrcVRel.dangles {s : SrcV K} {s' : SrcV K'} (h : SrcVRel R s s') (l : VL) :
    s.dangles l = s'.dangles l := by
  cases h <;> rfl

theorem loopV_rel (l : VL) {f : CEnv K → Nat → Outcome K} {g : CEnv K' → Nat → Outcome K'}
    (hf : ∀ ρ ρ' k, ERel R ρ ρ' → ORel R (f ρ k) (g ρ' k)) {ρ : CEnv K} {ρ' : CEnv K'}
    (he : ERel R ρ ρ') : ORel (ERel R) (loopV l f ρ) (loopV l g ρ') := by
  unfold loopV
  refine ORel.forO _ (fun k a b hab => ?_) he
  exact (hf a b k hab).bind fun _ _ hx => write_rel hab _ _ hx
theorem loopM_rel (l : ML) {f : CEnv K → Nat → Nat → Outcome K} {g : CEnv K' → Nat → Nat → Outcome K'}
    (hf : ∀ ρ ρ' i j, ERel R ρ ρ' → ORel R (f ρ i j) (g ρ' i j)) {ρ : CEnv K} {ρ' : CEnv K'}
    (he : ERel R ρ ρ') : ORel (ERel R) (loopM l f ρ) (loopM l g ρ') := by
  unfold loopM
  refine ORel.forO _ (fun i a b hab => ?_) he
  refine ORel.forO _ (fun j a b hab => ?_) hab
  exact (hf a b i j hab).bind fun _ _ hx => write_rel hab _ _ hx

section prog
variable [Zero K] [One K] [Add K] [Sub K] [Mul K] [Div K] [Neg K]
  [Zero K'] [One K'] [Add K'] [Sub K'] [Mul K'] [Div K'] [Neg K']
variable (h : Respects R) {f : K → K'} (hf : ∀ x, R x (f x))
include h hf

theorem srcV_rel {ρ : CEnv K} {ρ' : CEnv K'} (he : ERel R ρ ρ') (e : Ex K .v) :
    ORel (SrcVRel R) (srcV ρ e) (srcV ρ' (e.map f)) := by
  unfold srcV
  rw [isView_map, locate_map he]
  split
  · exact ORel.bindEq _ fun l => .ok (.live l)
  · exact ORel.bind (P := VRel R) (run_rel h hf he e) fun a b hab => .ok (.tmp hab)
theorem srcM_rel {ρ : CEnv K} {ρ' : CEnv K'} (he : ERel R ρ ρ') (e : Ex K .m) :
    ORel (SrcMRel R) (srcM ρ e) (srcM ρ' (e.map f)) := by
  unfold srcM
  rw [isView_map, locate_map he]
  split
  · exact ORel.bindEq _ fun l => .ok (.live l)
  · exact ORel.bind (P := MRel R) (run_rel h hf he e) fun a b hab => .ok (.tmp hab)

omit hf in
theorem upd1_rel (o : BinM) {x y : K} {x' y' : K'} (hx : R x x') (hy : R y y') :
    R (upd1 o x y) (upd1 o x' y') := by
  cases o
  · exact h.add hx hy
  · exact h.sub hx hy
omit hf in
theorem md1_rel (o : Md) {x y : K} {x' y' : K'} (hx : R x x') (hy : R y y') :
    R (md1 o x y) (md1 o x' y') := by
  cases o
  · exact h.mul hx hy
  · exact h.div hx hy

theorem asgS_rel {ρ : CEnv K} {ρ' : CEnv K'} (he : ERel R ρ ρ') (l : Root × (Nat × Nat))
    (r : Rhs K .s) : ORel (ERel R) (asgS ρ l r) (asgS ρ' l (r.map f)) := by
  cases r with
  | eqS e => exact ORel.bind (P := R) (run_rel h hf he e) fun _ _ hy => write_rel he _ _ hy
  | updS o e => exact ORel.bind (P := R) (run_rel h hf he e) fun _ _ hy =>
      (read_rel he _ _).bind fun _ _ hx => write_rel he _ _ (upd1_rel h o hx hy)

theorem asgV_rel {ρ : CEnv K} {ρ' : CEnv K'} (he : ERel R ρ ρ') (l : VL) (r : Rhs K .v) :
    ORel (ERel R) (asgV ρ l r) (asgV ρ' l (r.map f)) := by
  cases r with
  | eqV e =>
    unfold Rhs.map asgV
    dsimp only
    split
    · split
      · rename_i i _
        have hv := he.v i
        generalize hq : ρ.v i = o, hq' : ρ'.v i = o' at hv
        cases hv with
        | some hv =>
          refine (srcV_rel h hf he e).bind fun s s' hs => ?_
          rw [hs.dangles]
          exact ORel.bindEq _ fun _ => ORel.bind (P := VRel R) (run_rel h hf he e) fun _ _ hb =>
            (assignV_rel hv hb).bind fun _ _ hb => .ok (setV_rel he i hb)
        | none => exact .ub
      · exact .ub
    · refine (srcV_rel h hf he e).bind fun s s' hs => ?_
      rw [hs.eqs.1, hs.eqs.2]
      exact ORel.bindEq _ fun _ => loopV_rel l (fun _ _ k hab => hs.get hab k) he
  | updV o e =>
    refine (srcV_rel h hf he e).bind fun s s' hs => ?_
    rw [hs.eqs.1, hs.eqs.2]
    refine ORel.bindEq _ fun _ => loopV_rel l (fun _ _ k hab => ?_) he
    exact (read_rel hab _ _).bind fun _ _ hx =>
      (hs.get hab k).bind fun _ _ hy => .ok (upd1_rel h o hx hy)
  | scaV o s =>
    refine ORel.bind (P := R) (run_rel h hf he s) fun _ _ hs => loopV_rel l (fun _ _ k hab => ?_) he
    exact (read_rel hab _ _).bind fun _ _ hx => .ok (md1_rel h o hx hs)
  | onesV s =>
    refine ORel.bind (P := R) (run_rel h hf he s) fun _ _ hs => loopV_rel l (fun _ _ k hab => ?_) he
    exact .ok hs
  | onesUpdV o s =>
    refine ORel.bind (P := R) (run_rel h hf he s) fun _ _ hs => loopV_rel l (fun _ _ k hab => ?_) he
    exact (read_rel hab _ _).bind fun _ _ hx => .ok (upd1_rel h o hx hs)

theorem asgM_rel {ρ : CEnv K} {ρ' : CEnv K'} (he : ERel R ρ ρ') (l : ML) (r : Rhs K .m) :
    ORel (ERel R) (asgM ρ l r) (asgM ρ' l (r.map f)) := by
  cases r with
  | eqM e =>
    refine (srcM_rel h hf he e).bind fun s s' hs => ?_
    rw [hs.eqs.1, hs.eqs.2.1, hs.eqs.2.2.1, hs.eqs.2.2.2]
    exact ORel.bindEq _ fun _ => ORel.bindEq _ fun _ => loopM_rel l (fun _ _ i j hab => hs.get hab i j) he
  | updM o e =>
    refine (srcM_rel h hf he e).bind fun s s' hs => ?_
    rw [hs.eqs.1, hs.eqs.2.1, hs.eqs.2.2.1, hs.eqs.2.2.2]
    refine ORel.bindEq _ fun _ => ORel.bindEq _ fun _ => loopM_rel l (fun _ _ i j hab => ?_) he
    exact (read_rel hab _ _).bind fun _ _ hx => (hs.get hab i j).bind fun _ _ hy =>
        .ok (upd1_rel h o hx hy)
  | scaM o s =>
    refine ORel.bind (P := R) (run_rel h hf he s) fun _ _ hs => loopM_rel l (fun _ _ i j hab => ?_) he
    exact (read_rel hab _ _).bind fun _ _ hx => .ok (md1_rel h o hx hs)
  | onesM s =>
    refine ORel.bind (P := R) (run_rel h hf he s) fun _ _ hs => loopM_rel l (fun _ _ i j hab => ?_) he
    exact .ok hs
  | onesUpdM o s =>
    refine ORel.bind (P := R) (run_rel h hf he s) fun _ _ hs => loopM_rel l (fun _ _ i j hab => ?_) he
    exact (read_rel hab _ _).bind fun _ _ hx => .ok (upd1_rel h o hx hs)
  | identM s =>
    refine ORel.bind (P := R) (run_rel h hf he s) fun _ _ hs => ORel.bindEq _ fun _ => ?_
    refine (loopM_rel l (fun _ _ i j hab => ?_) he).bind fun _ _ he' => ?_
    · exact .ok h.zero
    · refine ORel.forO _ (fun i _ _ hab => ?_) he'
      exact write_rel hab _ _ hs
  | identUpdM s =>
    refine ORel.bind (P := R) (run_rel h hf he s) fun _ _ hs => ORel.bindEq _ fun _ => ?_
    refine ORel.forO _ (fun i _ _ hab => ?_) he
    exact (read_rel hab _ _).bind fun _ _ hx => write_rel hab _ _ (h.add hx hs)

theorem execS_rel {ρ : CEnv K} {ρ' : CEnv K'} (he : ERel R ρ ρ') (s : Stmt K) :
    ORel (ERel R) (execS ρ s) (execS ρ' (s.map f)) := by
  cases s with
  | declV i S e =>
    refine ORel.bind (P := VRel R) (run_rel h hf he (.convV S e)) ?_
    intro _ _ hb
    exact .ok (setV_rel he i hb)
  | declM i S C e =>
    refine ORel.bind (P := MRel R) (run_rel h hf he (.convM S C e)) ?_
    intro _ _ hb
    exact .ok (setM_rel he i hb)
  | @asg k L r =>
    unfold Stmt.map execS
    dsimp only
    rw [locate_map he]
    refine ORel.bindEq _ fun l => ?_
    cases k with
    | s => exact asgS_rel h hf he l r
    | v => exact asgV_rel h hf he l r
    | m => exact asgM_rel h hf he l r

theorem runP_rel {ρ : CEnv K} {ρ' : CEnv K'} (he : ERel R ρ ρ') (p : List (Stmt K)) :
    ORel (ERel R) (runP ρ p) (runP ρ' (p.map (Stmt.map f))) := by
  induction p generalizing ρ ρ' with
  | nil => exact .ok he
  | cons s p ih => exact (execS_rel h hf he s).bind fun _ _ hab => ih hab

end prog
end TooN.Expr
