import Verif.Proof.ThreadRun
/-!
# Statements and programs, access by access
-/
set_option linter.unusedSectionVars false
set_option linter.unusedSimpArgs false
namespace TooN.Expr
open TooN.Thread

variable {K : Type} [Zero K] [One K] [Add K] [Sub K] [Mul K] [Div K] [Neg K]

/-- like `Sim`, with contents of the memory instead of the memory -/
structure SimS (t : T K Unit) (ρ : CEnv K) (o : Outcome (CEnv K)) (R W : Set MLoc) : Prop where
  out : (t.run ρ).2 = o.bind fun _ => .ok ()
  mem : ∀ ρ', o = .ok ρ' → Same (t.run ρ).1 ρ'
  rd : t.reads ρ ⊆ R
  wr : t.writes ρ ⊆ W

theorem Sim.toS {t : T K Unit} {ρ : CEnv K} {o : Outcome (CEnv K)} {R W : Set MLoc}
    (h : Sim t ρ o R W) : SimS t ρ o R W := ⟨h.out, fun ρ' e => h.mem ρ' e ▸ Same.refl _, h.rd, h.wr⟩

theorem SimS.bindPure {α : Type} {t : T K α} {ρ : CEnv K} {x : Outcome α} {R W : Set MLoc}
    {f : α → T K Unit} {g : α → Outcome (CEnv K)} (h : Pure t ρ x R)
    (hf : ∀ a, x = .ok a → SimS (f a) ρ (g a) R W) : SimS (T.bind t f) ρ (x.bind g) R W := by
  unfold T.bind
  cases x with
  | ok a =>
    have := hf a rfl
    refine ⟨?_, ?_, ?_, ?_⟩
    · rw [Th.run_bind, h.run]; exact this.out
    · rw [Th.run_bind, h.run]; exact this.mem
    · rw [Th.reads_bind, h.run]; exact Set.union_subset h.rd this.rd
    · rw [Th.writes_bind, h.run, h.wr, Set.empty_union]; exact this.wr
  | abort =>
    refine ⟨?_, fun _ h => (by cases h), ?_, ?_⟩
    · rw [Th.run_bind, h.run]; rfl
    · rw [Th.reads_bind, h.run]; exact Set.union_subset h.rd (fun _ h => h.elim)
    · rw [Th.writes_bind, h.run, h.wr, Set.empty_union]; exact fun _ h => h.elim
  | ub =>
    refine ⟨?_, fun _ h => (by cases h), ?_, ?_⟩
    · rw [Th.run_bind, h.run]; rfl
    · rw [Th.reads_bind, h.run]; exact Set.union_subset h.rd (fun _ h => h.elim)
    · rw [Th.writes_bind, h.run, h.wr, Set.empty_union]; exact fun _ h => h.elim

theorem SimS.ub {ρ : CEnv K} {R W : Set MLoc} : SimS (Th.ret .ub : T K Unit) ρ .ub R W :=
  ⟨rfl, fun _ h => (by cases h), fun _ h => h.elim, fun _ h => h.elim⟩

theorem SimS.mono {t : T K Unit} {ρ : CEnv K} {o : Outcome (CEnv K)} {R W R' W' : Set MLoc}
    (h : SimS t ρ o R W) (hR : R ⊆ R') (hW : W ⊆ W') : SimS t ρ o R' W' :=
  ⟨h.out, h.mem, h.rd.trans hR, h.wr.trans hW⟩

/-- `make` of a vector with the same visible contents -/
theorem makeV_sim (ρ : CEnv K) (i : Nat) {b b' : VB K} (h : VEq b b') {R : Set MLoc} :
    SimS (Th.act (.makeV i b') fun _ => T.ok ()) ρ
      (.ok { ρ with v := fun j => if j = i then some b else ρ.v j }) R {l | l.root = .v i} := by
  refine ⟨rfl, fun ρ' e l => ?_, ?_, ?_⟩
  · cases e
    have h1 := make_look ρ i b' l
    have h2 := make_look ρ i b l
    refine h1.trans (Eq.trans ?_ h2.symm)
    split
    · cases l with
      | shape r => simp only [h.S, h.n]
      | cell r p =>
        simp only [← h.n]
        by_cases hp : p.1 < b.n ∧ p.2 = 0
        · rw [if_pos hp, if_pos hp, h.cell _ hp.1]
        · rw [if_neg hp, if_neg hp]
    · rfl
  · rintro l (h | h) <;> exact h.elim
  · rintro l (h | h)
    · exact h
    · exact h.elim
theorem makeM_sim (ρ : CEnv K) (i : Nat) (b : MB K) {R : Set MLoc} :
    SimS (Th.act (.makeM i b) fun _ => T.ok ()) ρ
      (.ok { ρ with m := fun j => if j = i then some b else ρ.m j }) R {l | l.root = .m i} := by
  refine ⟨rfl, fun ρ' e l => ?_, ?_, ?_⟩
  · cases e; rfl
  · rintro l (h | h) <;> exact h.elim
  · rintro l (h | h)
    · exact h
    · exact h.elim

theorem storeV_blank (f : Nat → Outcome K) {b b' : VB K} (hS : b.S = b'.S) (hn : b.n = b'.n) :
    ORel VEq (storeV b.n f b) (storeV b'.n f b') := by
  have key : ∀ m, m ≤ b.n → ORel (fun c c' : VB K => c.S = c'.S ∧ c.n = c'.n ∧ c.n = b.n ∧
      ∀ k, k < m → c.cell k = c'.cell k) (storeV m f b) (storeV m f b') := by
    intro m
    induction m with
    | zero => exact fun _ => .ok ⟨hS, hn, rfl, fun k hk => by omega⟩
    | succ m ih =>
      intro hm
      refine (ih (by omega)).bind fun c c' hc => ORel.bindEq (f m) fun x => ?_
      unfold VB.set
      rw [if_pos (by omega), if_pos (by omega)]
      refine .ok ⟨hc.1, hc.2.1, hc.2.2.1, fun k hk => ?_⟩
      dsimp only
      by_cases hkm : k = m
      · rw [if_pos hkm, if_pos hkm]
      · rw [if_neg hkm, if_neg hkm]; exact hc.2.2.2 k (by omega)
  have := key b.n le_rfl
  rw [← hn]
  generalize storeV b.n f b = x, storeV b.n f b' = y at this ⊢
  cases this with
  | ok h => exact .ok ⟨h.1, h.2.1, fun i hi => h.2.2.2 i (h.2.2.1 ▸ hi)⟩
  | abort => exact .abort
  | ub => exact .ub

theorem assignV_blank {b b' : VB K} (hS : b.S = b'.S) (hn : b.n = b'.n) (a : VB K) :
    ORel VEq (assignV b a) (assignV b' a) := by
  unfold assignV tryResize
  rw [← hS]
  by_cases h : b.S = Checks.Resizable
  · rw [if_pos h, if_pos h]
    by_cases h0 : a.n = 0
    · rw [if_pos h0, if_pos h0]; exact .ub
    · rw [if_neg h0, if_neg h0]
      simp only [Outcome.bind]
      cases test b.S a.S a.n a.n with
      | ok _ =>
        exact storeV_blank (b := ⟨b.S, a.n, fun i => if i < b.n ∧ i < a.n then b.cell i else none⟩)
          (b' := ⟨b.S, a.n, fun i => if i < b'.n ∧ i < a.n then b'.cell i else none⟩) (fun i => a.get i) rfl rfl
      | abort => exact .abort
      | ub => exact .ub
  · rw [if_neg h, if_neg h]
    simp only [Outcome.bind]
    rw [← hS, ← hn]
    cases test b.S a.S b.n a.n with
    | ok _ => have := storeV_blank (fun i => a.get i) hS hn; rw [← hn] at this; exact this
    | abort => exact .abort
    | ub => exact .ub

theorem locCells_v (l : VL) {k : Nat} (hk : k < l.n) :
    (l.root, l.cell k) ∈ locCells (k := .v) l := by
  simp only [locCells, List.mem_map, List.mem_range]
  exact ⟨k, hk, rfl⟩
theorem locCells_m (l : ML) {i j : Nat} (hi : i < l.r) (hj : j < l.c) :
    (l.root, l.cell i j) ∈ locCells (k := .m) l := by
  simp only [locCells, List.mem_flatMap, List.mem_map, List.mem_range]
  exact ⟨i, hi, j, hj, rfl⟩

theorem asgVT_sim {ρ : CEnv K} (hρ : Tidy ρ) (L : Ex K .v) (l : VL) (hl : locate ρ L = .ok l)
    (r : Rhs K .v) : SimS (asgVT l r) ρ (asgV ρ l r) (stmtR ρ (.asg L r) ∪ asgW (k := .v) l r)
      (asgW (k := .v) l r) := by
  have hroot : MLoc.shape l.root ∈ stmtR ρ (.asg L r) ∪ asgW (k := .v) l r :=
    .inl (.inl ⟨_, locate_root L l hl, rfl⟩)
  have hrhs : rhsR ρ r ⊆ stmtR ρ (.asg L r) ∪ asgW (k := .v) l r := fun x hx => .inl (.inr hx)
  have hW : resizes (k := .v) l r = false → ∀ k, k < l.n → MLoc.cell l.root (l.cell k) ∈ asgW (k := .v) l r := by
    intro h k hk
    unfold asgW; rw [h]
    exact ⟨_, locCells_v l hk, rfl⟩
  generalize hWW : asgW (k := .v) l r = W at *
  generalize hRR : stmtR ρ (.asg L r) ∪ W = R at *
  have hWR : W ⊆ R := hRR ▸ fun x hx => .inr hx
  cases r with
  | eqV e =>
    unfold asgVT asgV
    dsimp only
    by_cases hS : l.S = Checks.Resizable
    · rw [if_pos hS, if_pos hS]
      cases hr : l.root with
      | m i => exact SimS.ub
      | v i =>
        have hsz : (varSys K).sem (.size (.v i)) ρ = (ρ, ρ.shapeOf (.v i)) := rfl
        dsimp only
        have main : SimS (resizeT i l e (ρ.shapeOf (.v i))) ρ (match ρ.v i with
          | some b => (srcV ρ e).bind fun s => (s.dangles l).bind fun _ => (run ρ e).bind fun b' =>
            (assignV b b').bind fun b => .ok { ρ with v := fun j => if j = i then some b else ρ.v j }
          | none => .ub) R W := by
          cases hb : ρ.v i with
          | none =>
            have : ρ.shapeOf (.v i) = none := by simp [CEnv.shapeOf, hb]
            rw [this]; exact SimS.ub
          | some b =>
            have : ρ.shapeOf (.v i) = some ⟨b.S, 1, b.n, 1⟩ := by simp [CEnv.shapeOf, hb]
            rw [this]
            unfold resizeT
            dsimp only
            refine SimS.bindPure ((srcVT_pure hρ e).mono hrhs) fun s _ => ?_
            refine SimS.bindPure (Pure.ret _ _ _) fun _ _ => ?_
            obtain ⟨o, hp, hrel, _⟩ := evalT_pure hρ e
            have hW' : {x : MLoc | x.root = .v i} ⊆ W := by
              rw [← hWW]; unfold asgW
              have : resizes (k := .v) l (.eqV e : Rhs K .v) = true := by simp [resizes, hS]
              rw [if_pos this]
              intro x hx; show _ = _; rw [show x.root = _ from hx]; exact hr.symm
            have hE : ((run ρ e).bind fun b' => (assignV b b').bind fun b =>
                .ok { ρ with v := fun j => if j = i then some b else ρ.v j }) =
                (o.bind fun b' => (assignV b b').bind fun b =>
                (.ok { ρ with v := fun j => if j = i then some b else ρ.v j } : Outcome (CEnv K))) :=
              hrel.eq fun x y hxy => by rw [assignV_congr b hxy]
            rw [hE]
            refine SimS.bindPure (hp.mono hrhs) fun b' _ => ?_
            have hbl := assignV_blank (b := b) (b' := ⟨b.S, b.n, fun _ => .none⟩) rfl rfl b'
            generalize assignV b b' = x, assignV (⟨b.S, b.n, fun _ => .none⟩ : VB K) b' = y at hbl
            cases hbl with
            | ok h => exact (makeV_sim ρ i h).mono (fun _ h => h) hW'
            | abort => exact ⟨rfl, fun _ h => (by cases h), fun _ h => h.elim, fun _ h => h.elim⟩
            | ub => exact SimS.ub
        refine ⟨main.out, main.mem, ?_, ?_⟩
        · rintro x (hx | hx)
          · cases hx; exact hr ▸ hroot
          · exact main.rd hx
        · rintro x (hx | hx)
          · exact hx.elim
          · exact main.wr hx
    · rw [if_neg hS, if_neg hS]
      have hrz : resizes (k := .v) l (.eqV e : Rhs K .v) = false := by simp [resizes, hS]
      refine Sim.toS ?_
      refine Sim.bindPure ((srcVT_pure hρ e).mono hrhs) fun s hs => ?_
      refine Sim.bindPure (Pure.ret _ _ _) fun _ _ => ?_
      exact loopVT_sim (fun k _ ρ' => (getT_pure hs k ρ').mono hrhs) hroot (hW hrz) ρ
  | updV o e =>
    refine Sim.toS (Sim.bindPure ((srcVT_pure hρ e).mono hrhs) fun s hs =>
      Sim.bindPure (Pure.ret _ _ _) fun _ _ => ?_)
    exact loopVT_sim (fun k hk ρ' => (loadT_pure ρ' _ _ hroot (hWR (hW rfl k hk))).bind fun x _ =>
      ((getT_pure hs k ρ').mono hrhs).bind fun y _ => Pure.ret _ _ _) hroot (hW rfl) ρ
  | scaV o s =>
    refine Sim.toS (Sim.bindPure ((evalT_pure_s hρ s).mono hrhs) fun s hs => ?_)
    exact loopVT_sim (fun k hk ρ' => (loadT_pure ρ' _ _ hroot (hWR (hW rfl k hk))).bind fun x _ =>
      Pure.ret _ _ _) hroot (hW rfl) ρ
  | onesV s =>
    refine Sim.toS (Sim.bindPure ((evalT_pure_s hρ s).mono hrhs) fun s hs => ?_)
    exact loopVT_sim (fun k hk ρ' => Pure.ret _ _ _) hroot (hW rfl) ρ
  | onesUpdV o s =>
    refine Sim.toS (Sim.bindPure ((evalT_pure_s hρ s).mono hrhs) fun s hs => ?_)
    exact loopVT_sim (fun k hk ρ' => (loadT_pure ρ' _ _ hroot (hWR (hW rfl k hk))).bind fun x _ =>
      Pure.ret _ _ _) hroot (hW rfl) ρ

/-- a static size is the run-time size -/
def DimS (S : Int) (n : Nat) : Prop := Checks.isStatic S = true → S = n
/-- every variable has the dimensions its type says -/
def Dims (ρ : CEnv K) : Prop := ∀ r s, ρ.shapeOf r = some s → DimS s.R s.r ∧ DimS s.C s.c

theorem test_dims {R C : Int} {r c : Nat} {x : Unit} (h : test R C r c = .ok x) (hr : DimS R r)
    (hc : DimS C c) : r = c := by
  unfold test Checks.sizeMismatch Checks.sizeMismatch_ at h
  unfold DimS Checks.isStatic at hr hc
  by_contra hne
  have hne' : ¬ ((r : Int) = (c : Int)) := by exact_mod_cast hne
  by_cases h1 : R = Checks.Dynamic ∨ R = Checks.Resizable <;>
    by_cases h2 : C = Checks.Dynamic ∨ C = Checks.Resizable
  · simp [h1, h2, hne'] at h
  · push Not at h2
    simp [h1, h2, hne', Ne.symm h2.1, h2.1] at h
  · push Not at h1
    simp [h1, h2, hne', Ne.symm h1.1, h1.1] at h
  · push Not at h1 h2
    have e1 := hr (by simp [h1])
    have e2 := hc (by simp [h2])
    have : R ≠ C := by intro he; exact hne' (by rw [← e1, ← e2, he])
    simp [h1, h2, this] at h

def LDim : {k : Knd} → CLoc k → Prop
  | .s, _ => True
  | .v, l => DimS (VL.S l) (VL.n l)
  | .m, l => DimS (ML.R l) (ML.r l) ∧ DimS (ML.C l) (ML.c l)

theorem dimS_dyn (n : Nat) : DimS Checks.Dynamic n := fun h => by simp [Checks.isStatic] at h
theorem dimS_one : DimS 1 1 := fun _ => rfl
theorem dimS_diag {R C : Int} {r c : Nat} (hr : DimS R r) (hc : DimS C c) :
    DimS (Typed.diagSize R C) (min c r) := by
  unfold Typed.diagSize DimS Checks.isStatic at *
  intro h
  by_cases h1 : R = Checks.Dynamic ∨ C = Checks.Dynamic
  · rw [if_pos h1] at h; simp at h
  · rw [if_neg h1] at h ⊢
    push Not at h1
    by_cases h2 : R < C
    · rw [if_pos h2] at h ⊢
      have e1 := hr h
      by_cases h3 : C = Checks.Resizable
      · subst h3; unfold Checks.Resizable at h2; omega
      · have e2 := hc (by simp [h1, h3])
        omega
    · rw [if_neg h2] at h ⊢
      have e1 := hc h
      by_cases h3 : R = Checks.Resizable
      · subst h3; unfold Checks.Resizable at h2; omega
      · have e2 := hr (by simp [h1, h3])
        omega

theorem ldim_bind {k k' : Knd} {x : Outcome (CLoc k)} {f : CLoc k → Outcome (CLoc k')} {l : CLoc k'}
    (h : x.bind f = .ok l) : ∃ a, x = .ok a ∧ f a = .ok l := by
  cases x with
  | ok a => exact ⟨a, rfl, h⟩
  | abort => cases h
  | ub => cases h

theorem locate_dims {ρ : CEnv K} (hd : Dims ρ) : {k : Knd} → (e : Ex K k) → (l : CLoc k) →
    locate ρ e = .ok l → LDim l
  | _, .varV i, l, h => by
    unfold locate at h
    cases h1 : ρ.v i with
    | none => rw [h1] at h; cases h
    | some b =>
      rw [h1] at h; cases h
      exact (hd (.v i) ⟨b.S, 1, b.n, 1⟩ (by simp [CEnv.shapeOf, h1])).1
  | _, .varM i, l, h => by
    unfold locate at h
    cases h1 : ρ.m i with
    | none => rw [h1] at h; cases h
    | some b =>
      rw [h1] at h; cases h
      exact hd (.m i) ⟨b.R, b.C, b.r, b.c⟩ (by simp [CEnv.shapeOf, h1])
  | _, .idx a i, l, h => trivial
  | _, .el A i j, l, h => trivial
  | _, .sliceV a s n, l, h => by
    unfold locate at h
    obtain ⟨l', _, h2⟩ := ldim_bind h
    split at h2 <;> cases h2
    exact dimS_dyn _
  | _, .row A i, l, h => by
    unfold locate at h
    obtain ⟨l', h1, h2⟩ := ldim_bind h
    have ih := locate_dims hd A l' h1
    split at h2 <;> cases h2
    exact ih.2
  | _, .diagS A, l, h => by
    unfold locate at h
    obtain ⟨l', h1, h2⟩ := ldim_bind h
    have ih := locate_dims hd A l' h1
    cases h2
    exact dimS_diag ih.1 ih.2
  | _, .transp A, l, h => by
    unfold locate at h
    obtain ⟨l', h1, h2⟩ := ldim_bind h
    have ih := locate_dims hd A l' h1
    cases h2
    exact ⟨ih.2, ih.1⟩
  | _, .sliceM A _ _ _ _, l, h => by
    unfold locate at h
    obtain ⟨l', h1, h2⟩ := ldim_bind h
    split at h2
    · split at h2 <;> cases h2
      exact ⟨dimS_dyn _, dimS_dyn _⟩
    · cases h2
  | _, .asCol a, l, h => by
    unfold locate at h
    obtain ⟨l', h1, h2⟩ := ldim_bind h
    have ih := locate_dims hd a l' h1
    split at h2 <;> cases h2
    exact ⟨ih, dimS_one⟩
  | _, .asRow a, l, h => by
    unfold locate at h
    obtain ⟨l', h1, h2⟩ := ldim_bind h
    have ih := locate_dims hd a l' h1
    split at h2 <;> cases h2
    exact ⟨dimS_one, ih⟩
  | _, .lit _, _, h => by cases h
  | _, .dot _ _, _, h => by cases h
  | _, .onesV _ _ _, _, h => by cases h
  | _, .convV _ _, _, h => by cases h
  | _, .binV _ _ _, _, h => by cases h
  | _, .negV _, _, h => by cases h
  | _, .scaV _ _ _, _, h => by cases h
  | _, .onesOpV _ _ _, _, h => by cases h
  | _, .cross _ _, _, h => by cases h
  | _, .mulMV _ _, _, h => by cases h
  | _, .mulVM _ _, _, h => by cases h
  | _, .diagMulV _ _, _, h => by cases h
  | _, .onesM _ _ _ _ _, _, h => by cases h
  | _, .identM _ _ _ _, _, h => by cases h
  | _, .convM _ _ _, _, h => by cases h
  | _, .binM _ _ _, _, h => by cases h
  | _, .negM _, _, h => by cases h
  | _, .scaM _ _ _, _, h => by cases h
  | _, .onesOpM _ _ _, _, h => by cases h
  | _, .identOpM _ _ _, _, h => by cases h
  | _, .mulMM _ _, _, h => by cases h
  | _, .mulMD _ _, _, h => by cases h
  | _, .mulDM _ _, _, h => by cases h

theorem asgMT_sim {ρ : CEnv K} (hρ : Tidy ρ) (hd : Dims ρ) (L : Ex K .m) (l : ML)
    (hl : locate ρ L = .ok l)
    (r : Rhs K .m) : Sim (asgMT l r) ρ (asgM ρ l r) (stmtR ρ (.asg L r) ∪ asgW (k := .m) l r)
      (asgW (k := .m) l r) := by
  have hroot : MLoc.shape l.root ∈ stmtR ρ (.asg L r) ∪ asgW (k := .m) l r :=
    .inl (.inl ⟨_, locate_root L l hl, rfl⟩)
  have hrhs : rhsR ρ r ⊆ stmtR ρ (.asg L r) ∪ asgW (k := .m) l r := fun x hx => .inl (.inr hx)
  have hW : ∀ i j, i < l.r → j < l.c → MLoc.cell l.root (l.cell i j) ∈ asgW (k := .m) l r := by
    intro i j hi hj
    exact ⟨_, locCells_m l hi hj, rfl⟩
  have hld : DimS l.R l.r ∧ DimS l.C l.c := locate_dims hd L l hl
  generalize hWW : asgW (k := .m) l r = W at *
  generalize hRR : stmtR ρ (.asg L r) ∪ W = R at *
  have hWR : W ⊆ R := hRR ▸ fun x hx => .inr hx
  cases r with
  | eqM e =>
    refine Sim.bindPure ((srcMT_pure hρ e).mono hrhs) fun s hs =>
      Sim.bindPure (Pure.ret _ _ _) fun _ _ => Sim.bindPure (Pure.ret _ _ _) fun _ _ => ?_
    exact loopMT_sim (fun i j _ _ ρ' => (getMT_pure hs i j ρ').mono hrhs) hroot hW ρ
  | updM o e =>
    refine Sim.bindPure ((srcMT_pure hρ e).mono hrhs) fun s hs =>
      Sim.bindPure (Pure.ret _ _ _) fun _ _ => Sim.bindPure (Pure.ret _ _ _) fun _ _ => ?_
    exact loopMT_sim (fun i j hi hj ρ' => (loadT_pure ρ' _ _ hroot (hWR (hW i j hi hj))).bind fun x _ =>
      ((getMT_pure hs i j ρ').mono hrhs).bind fun y _ => Pure.ret _ _ _) hroot hW ρ
  | scaM o s =>
    refine Sim.bindPure ((evalT_pure_s hρ s).mono hrhs) fun s hs => ?_
    exact loopMT_sim (fun i j hi hj ρ' => (loadT_pure ρ' _ _ hroot (hWR (hW i j hi hj))).bind fun x _ =>
      Pure.ret _ _ _) hroot hW ρ
  | onesM s =>
    refine Sim.bindPure ((evalT_pure_s hρ s).mono hrhs) fun s hs => ?_
    exact loopMT_sim (fun i j hi hj ρ' => Pure.ret _ _ _) hroot hW ρ
  | onesUpdM o s =>
    refine Sim.bindPure ((evalT_pure_s hρ s).mono hrhs) fun s hs => ?_
    exact loopMT_sim (fun i j hi hj ρ' => (loadT_pure ρ' _ _ hroot (hWR (hW i j hi hj))).bind fun x _ =>
      Pure.ret _ _ _) hroot hW ρ
  | identM s =>
    refine Sim.bindPure ((evalT_pure_s hρ s).mono hrhs) fun s hs =>
      Sim.bindPure (Pure.ret _ _ _) fun _ ht => ?_
    have hrc : l.r = l.c := test_dims ht hld.1 hld.2
    exact (loopMT_sim (fun i j hi hj ρ' => Pure.ret _ _ _) hroot hW ρ).bind fun ρ' _ =>
      Sim.forT (fun k hk ρ => storeT_sim _ _ _ _ hroot (hW k k hk (hrc ▸ hk))) ρ'
  | identUpdM s =>
    refine Sim.bindPure ((evalT_pure_s hρ s).mono hrhs) fun s hs =>
      Sim.bindPure (Pure.ret _ _ _) fun _ ht => ?_
    have hrc : l.r = l.c := test_dims ht hld.1 hld.2
    exact Sim.forT (fun k hk ρ => Sim.bindPure
      (loadT_pure _ _ _ hroot (hWR (hW k k hk (hrc ▸ hk)))) fun _ _ =>
      storeT_sim _ _ _ _ hroot (hW k k hk (hrc ▸ hk))) ρ

theorem asgST_sim {ρ : CEnv K} (hρ : Tidy ρ) (L : Ex K .s) (l : CLoc .s) (hl : locate ρ L = .ok l)
    (r : Rhs K .s) : Sim (asgST l r) ρ (asgS ρ l r) (stmtR ρ (.asg L r) ∪ asgW (k := .s) l r)
      (asgW (k := .s) l r) := by
  have hroot : MLoc.shape l.1 ∈ stmtR ρ (.asg L r) ∪ asgW (k := .s) l r :=
    .inl (.inl ⟨_, locate_root L l hl, rfl⟩)
  have hrhs : rhsR ρ r ⊆ stmtR ρ (.asg L r) ∪ asgW (k := .s) l r := fun x hx => .inl (.inr hx)
  have hW : MLoc.cell l.1 l.2 ∈ asgW (k := .s) l r := ⟨l, by simp [locCells], rfl⟩
  cases r with
  | eqS e =>
    exact Sim.bindPure ((evalT_pure_s hρ e).mono hrhs) fun y _ => storeT_sim _ _ _ _ hroot hW
  | updS o e =>
    exact Sim.bindPure ((evalT_pure_s hρ e).mono hrhs) fun y _ =>
      Sim.bindPure (loadT_pure _ _ _ hroot (.inr hW)) fun x _ => storeT_sim _ _ _ _ hroot hW

/-- A statement, access by access, does what the statement does, within its footprint. -/
theorem stmtT_sim {ρ : CEnv K} (hρ : Tidy ρ) (hd : Dims ρ) (s : Stmt K) :
    SimS (stmtT s) ρ (execS ρ s) (stmtR ρ s ∪ stmtW ρ s) (stmtW ρ s) := by
  cases s with
  | declV i S e =>
    obtain ⟨o, hp, _, h⟩ := evalT_pure hρ (.convV S e)
    unfold stmtT execS
    dsimp only
    rw [h rfl]
    exact SimS.bindPure (hp.mono fun _ h => .inl h) fun b _ => makeV_sim ρ i (VEq.rfl' b)
  | declM i R C e =>
    obtain ⟨o, hp, _, h⟩ := evalT_pure hρ (.convM R C e)
    unfold stmtT execS
    dsimp only
    rw [h rfl]
    exact SimS.bindPure (hp.mono fun _ h => .inl h) fun b _ => makeM_sim ρ i b
  | @asg k L r =>
    unfold stmtT execS
    dsimp only
    have hp : Pure (locT L) ρ (locate ρ L) (stmtR ρ (.asg L r) ∪ stmtW ρ (.asg L r)) :=
      (locT_pure ρ L).mono fun _ h => .inl (.inl h)
    refine SimS.bindPure hp fun l hl => ?_
    have hW : stmtW ρ (.asg L r) = asgW l r := by unfold stmtW; dsimp only; rw [hl]
    rw [hW]
    cases k with
    | s => exact (asgST_sim hρ L l hl r).toS
    | v => exact asgVT_sim hρ L l hl r
    | m => exact (asgMT_sim hρ hd L l hl r).toS

/-! ### Well-formed states stay well-formed -/

structure WF (ρ : CEnv K) : Prop where
  tidy : Tidy ρ
  dims : Dims ρ

theorem forO_ok {σ : Type} {P : σ → Prop} {f : Nat → σ → Outcome σ}
    (hf : ∀ k s s', P s → f k s = .ok s' → P s') : ∀ (n : Nat) (s s' : σ), P s → forO n f s = .ok s' → P s'
  | 0, s, s', h, e => by cases e; exact h
  | n+1, s, s', h, e => by
    unfold forO at e
    cases h1 : forO n f s with
    | ok s1 => rw [h1] at e; exact hf n s1 s' (forO_ok hf n s s1 h h1) e
    | abort => rw [h1] at e; cases e
    | ub => rw [h1] at e; cases e

theorem bind_ok {α β : Type} {x : Outcome α} {f : α → Outcome β} {y : β} (h : x.bind f = .ok y) :
    ∃ a, x = .ok a ∧ f a = .ok y := by
  cases x with
  | ok a => exact ⟨a, rfl, h⟩
  | abort => cases h
  | ub => cases h

def WFV (b : VB K) : Prop := (∀ k, ¬ k < b.n → b.cell k = none) ∧ DimS b.S b.n
def WFM (b : MB K) : Prop := (∀ k l, ¬ (k < b.r ∧ l < b.c) → b.cell k l = none) ∧ DimS b.R b.r ∧ DimS b.C b.c

theorem WF.v {ρ : CEnv K} (h : WF ρ) {i : Nat} {b : VB K} (hb : ρ.v i = some b) : WFV b :=
  ⟨h.tidy.v i b hb, (h.dims (.v i) ⟨b.S, 1, b.n, 1⟩ (by simp [CEnv.shapeOf, hb])).1⟩
theorem WF.m {ρ : CEnv K} (h : WF ρ) {i : Nat} {b : MB K} (hb : ρ.m i = some b) : WFM b :=
  ⟨h.tidy.m i b hb, h.dims (.m i) ⟨b.R, b.C, b.r, b.c⟩ (by simp [CEnv.shapeOf, hb])⟩
theorem WF.mk' {ρ : CEnv K} (hv : ∀ i b, ρ.v i = some b → WFV b) (hm : ∀ i b, ρ.m i = some b → WFM b) :
    WF ρ := by
  refine ⟨⟨fun i b h => (hv i b h).1, fun i b h => (hm i b h).1⟩, ?_⟩
  rintro (i | i) s hs
  · simp only [CEnv.shapeOf, Option.map_eq_some_iff] at hs
    obtain ⟨b, hb, rfl⟩ := hs
    exact ⟨(hv i b hb).2, dimS_one⟩
  · simp only [CEnv.shapeOf, Option.map_eq_some_iff] at hs
    obtain ⟨b, hb, rfl⟩ := hs
    exact (hm i b hb).2

theorem wf_setV {ρ : CEnv K} (h : WF ρ) (i : Nat) {b : VB K} (hb : WFV b) :
    WF { ρ with v := fun j => if j = i then some b else ρ.v j } := by
  refine WF.mk' (fun j c hc => ?_) (fun j c hc => h.m hc)
  dsimp only at hc
  split at hc
  · cases hc; exact hb
  · exact h.v hc
theorem wf_setM {ρ : CEnv K} (h : WF ρ) (i : Nat) {b : MB K} (hb : WFM b) :
    WF { ρ with m := fun j => if j = i then some b else ρ.m j } := by
  refine WF.mk' (fun j c hc => h.v hc) (fun j c hc => ?_)
  dsimp only at hc
  split at hc
  · cases hc; exact hb
  · exact h.m hc

theorem wfv_set {b b' : VB K} (h : WFV b) {i : Nat} {x : K} (e : b.set i x = .ok b') : WFV b' := by
  unfold VB.set at e
  split at e
  · rename_i hi
    cases e
    refine ⟨fun k hk => ?_, h.2⟩
    dsimp only at hk ⊢
    rw [if_neg (by omega)]; exact h.1 k hk
  · cases e
theorem wfm_set {b b' : MB K} (h : WFM b) {i j : Nat} {x : K} (e : b.set i j x = .ok b') : WFM b' := by
  unfold MB.set at e
  split at e
  · rename_i hi
    cases e
    refine ⟨fun k l hk => ?_, h.2⟩
    dsimp only at hk ⊢
    rw [if_neg (by rintro ⟨rfl, rfl⟩; exact hk hi)]; exact h.1 k l hk
  · cases e

theorem wf_write {ρ ρ' : CEnv K} (h : WF ρ) {r : Root} {p : Nat × Nat} {x : K}
    (e : ρ.write r p x = .ok ρ') : WF ρ' := by
  cases r with
  | v i =>
    unfold CEnv.write at e
    dsimp only at e
    cases hb : ρ.v i with
    | none => rw [hb] at e; cases e
    | some b =>
      rw [hb] at e
      dsimp only at e
      split at e
      · obtain ⟨b', h1, h2⟩ := bind_ok e
        cases h2
        exact wf_setV h i (wfv_set (h.v hb) h1)
      · cases e
  | m i =>
    unfold CEnv.write at e
    dsimp only at e
    cases hb : ρ.m i with
    | none => rw [hb] at e; cases e
    | some b =>
      rw [hb] at e
      dsimp only at e
      obtain ⟨b', h1, h2⟩ := bind_ok e
      cases h2
      exact wf_setM h i (wfm_set (h.m hb) h1)

theorem wf_loopV {l : VL} {val : CEnv K → Nat → Outcome K} {ρ ρ' : CEnv K} (h : WF ρ)
    (e : loopV l val ρ = .ok ρ') : WF ρ' :=
  forO_ok (P := WF) (fun k s s' hs hk => by
    obtain ⟨y, _, h2⟩ := bind_ok hk
    exact wf_write hs h2) _ _ _ h e
theorem wf_loopM {l : ML} {val : CEnv K → Nat → Nat → Outcome K} {ρ ρ' : CEnv K} (h : WF ρ)
    (e : loopM l val ρ = .ok ρ') : WF ρ' :=
  forO_ok (P := WF) (fun i s s' hs hi => forO_ok (P := WF) (fun j s s' hs hj => by
    obtain ⟨y, _, h2⟩ := bind_ok hj
    exact wf_write hs h2) _ _ _ hs hi) _ _ _ h e

theorem wfv_assign {b b' a : VB K} (h : WFV b) (e : assignV b a = .ok b') : WFV b' := by
  unfold assignV at e
  obtain ⟨v, h1, h2⟩ := bind_ok e
  obtain ⟨_, _, h3⟩ := bind_ok h2
  have hv : WFV v := by
    unfold tryResize at h1
    split at h1
    · rename_i hS
      split at h1
      · cases h1
      · cases h1
        refine ⟨fun k hk => if_neg fun h => hk h.2, fun hs => ?_⟩
        dsimp only at hs
        rw [hS] at hs; simp [Checks.isStatic] at hs
    · cases h1; exact h
  exact forO_ok (P := WFV) (fun k s s' hs hk => by
    obtain ⟨y, _, h2⟩ := bind_ok hk
    exact wfv_set hs h2) _ _ _ hv h3
theorem wfm_assign {b b' a : MB K} (h : WFM b) (e : assignM b a = .ok b') : WFM b' := by
  unfold assignM at e
  obtain ⟨_, _, h2⟩ := bind_ok e
  obtain ⟨_, _, h3⟩ := bind_ok h2
  exact forO_ok (P := WFM) (fun i s s' hs hi => forO_ok (P := WFM) (fun j s s' hs hj => by
    obtain ⟨y, _, h2⟩ := bind_ok hj
    exact wfm_set hs h2) _ _ _ hs hi) _ _ _ h h3

theorem dimS_runtime (S : Sz) (n : Nat) :
    DimS S.toInt (Checks.runtimeSize S.toInt n).toNat := by
  intro h
  unfold Checks.runtimeSize
  rw [if_pos h]
  cases S with
  | st k => simp [Sz.toInt]
  | dyn => simp [Sz.toInt, Checks.isStatic] at h
  | rsz => simp [Sz.toInt, Checks.isStatic] at h

theorem wfv_conv {S : Sz} {a b : VB K} (e : convVB S.toInt a = .ok b) : WFV b := by
  unfold convVB allocV at e
  obtain ⟨v, h1, h2⟩ := bind_ok e
  split at h1
  · cases h1
  · cases h1
    exact wfv_assign ⟨fun _ _ => rfl, dimS_runtime S a.n⟩ h2
theorem wfm_conv {R C : Sz} {a b : MB K} (e : convMB R.toInt C.toInt a = .ok b) : WFM b := by
  unfold convMB allocM at e
  obtain ⟨v, h1, h2⟩ := bind_ok e
  cases h1
  exact wfm_assign ⟨fun _ _ _ => rfl, dimS_runtime R a.r, dimS_runtime C a.c⟩ h2

theorem wf_asgV {ρ ρ' : CEnv K} (h : WF ρ) (l : VL) (r : Rhs K .v) (e : asgV ρ l r = .ok ρ') : WF ρ' := by
  cases r with
  | eqV ex =>
    unfold asgV at e
    dsimp only at e
    split at e
    · split at e
      · split at e
        · rename_i b hb
          obtain ⟨_, _, e⟩ := bind_ok e
          obtain ⟨_, _, e⟩ := bind_ok e
          obtain ⟨_, _, e⟩ := bind_ok e
          obtain ⟨b', h1, e⟩ := bind_ok e
          cases e
          exact wf_setV h _ (wfv_assign (h.v hb) h1)
        · cases e
      · cases e
    · obtain ⟨_, _, e⟩ := bind_ok e
      obtain ⟨_, _, e⟩ := bind_ok e
      exact wf_loopV h e
  | updV o ex =>
    obtain ⟨_, _, e⟩ := bind_ok e
    obtain ⟨_, _, e⟩ := bind_ok e
    exact wf_loopV h e
  | scaV o s => obtain ⟨_, _, e⟩ := bind_ok e; exact wf_loopV h e
  | onesV s => obtain ⟨_, _, e⟩ := bind_ok e; exact wf_loopV h e
  | onesUpdV o s => obtain ⟨_, _, e⟩ := bind_ok e; exact wf_loopV h e

theorem wf_asgM {ρ ρ' : CEnv K} (h : WF ρ) (l : ML) (r : Rhs K .m) (e : asgM ρ l r = .ok ρ') : WF ρ' := by
  cases r with
  | eqM ex =>
    obtain ⟨_, _, e⟩ := bind_ok e
    obtain ⟨_, _, e⟩ := bind_ok e
    obtain ⟨_, _, e⟩ := bind_ok e
    exact wf_loopM h e
  | updM o ex =>
    obtain ⟨_, _, e⟩ := bind_ok e
    obtain ⟨_, _, e⟩ := bind_ok e
    obtain ⟨_, _, e⟩ := bind_ok e
    exact wf_loopM h e
  | scaM o s => obtain ⟨_, _, e⟩ := bind_ok e; exact wf_loopM h e
  | onesM s => obtain ⟨_, _, e⟩ := bind_ok e; exact wf_loopM h e
  | onesUpdM o s => obtain ⟨_, _, e⟩ := bind_ok e; exact wf_loopM h e
  | identM s =>
    obtain ⟨_, _, e⟩ := bind_ok e
    obtain ⟨_, _, e⟩ := bind_ok e
    obtain ⟨_, h1, e⟩ := bind_ok e
    exact forO_ok (P := WF) (fun k s s' hs hk => wf_write hs hk) _ _ _ (wf_loopM h h1) e
  | identUpdM s =>
    obtain ⟨_, _, e⟩ := bind_ok e
    obtain ⟨_, _, e⟩ := bind_ok e
    exact forO_ok (P := WF) (fun k s s' hs hk => by
      obtain ⟨_, _, hk⟩ := bind_ok hk
      exact wf_write hs hk) _ _ _ h e

theorem wf_execS {ρ ρ' : CEnv K} (h : WF ρ) (s : Stmt K) (e : execS ρ s = .ok ρ') : WF ρ' := by
  cases s with
  | declV i S ex =>
    obtain ⟨b, h1, e⟩ := bind_ok e
    cases e
    obtain ⟨a, _, h1⟩ := bind_ok (show (run ρ ex).bind (fun a => convVB S.toInt a) = .ok b from h1)
    exact wf_setV h i (wfv_conv h1)
  | declM i R C ex =>
    obtain ⟨b, h1, e⟩ := bind_ok e
    cases e
    obtain ⟨a, _, h1⟩ := bind_ok (show (run ρ ex).bind (fun a => convMB R.toInt C.toInt a) = .ok b from h1)
    exact wf_setM h i (wfm_conv h1)
  | @asg k L r =>
    obtain ⟨l, _, e⟩ := bind_ok e
    cases k with
    | s =>
      cases r with
      | eqS ex => obtain ⟨_, _, e⟩ := bind_ok (show (run ρ ex).bind _ = _ from e); exact wf_write h e
      | updS o ex =>
        obtain ⟨_, _, e⟩ := bind_ok (show (run ρ ex).bind _ = _ from e)
        obtain ⟨_, _, e⟩ := bind_ok e
        exact wf_write h e
    | v => exact wf_asgV h l r e
    | m => exact wf_asgM h l r e

/-- A program, access by access, does what the program does, within its footprint. -/
theorem progT_sim (p : List (Stmt K)) {ρ : CEnv K} (hρ : WF ρ) :
    SimS (progT p) ρ (runP ρ p) (progR ρ p ∪ progW ρ p) (progW ρ p) := by
  induction p generalizing ρ with
  | nil => exact ⟨rfl, fun _ h => (by cases h; exact Same.refl _), fun _ h => h.elim, fun _ h => h.elim⟩
  | cons s p ih =>
    have hs := stmtT_sim hρ.tidy hρ.dims s
    unfold progT runP progR progW T.bind
    cases he : execS ρ s with
    | ok ρ' =>
      rw [he] at hs
      have hp := ih (wf_execS hρ s he)
      have hm : Same ((stmtT s).run ρ).1 ρ' := hs.mem _ rfl
      have ho : ((stmtT s).run ρ).2 = .ok () := hs.out
      obtain ⟨c1, c2, c3, c4⟩ := Th.congr varSys_lawful (progT p) hm
      dsimp only
      refine ⟨?_, ?_, ?_, ?_⟩
      · rw [Th.run_bind, ho]; exact c1.trans hp.out
      · intro ρ'' e
        rw [Th.run_bind, ho]
        exact fun l => (c2 l).trans (hp.mem ρ'' e l)
      · rw [Th.reads_bind, ho]
        refine Set.union_subset (hs.rd.trans ?_) ?_
        · rintro x (h | h)
          · exact .inl (.inl h)
          · exact .inr (.inl h)
        · show (progT p).reads _ ⊆ _
          rw [c3]
          refine hp.rd.trans ?_
          rintro x (h | h)
          · exact .inl (.inr h)
          · exact .inr (.inr h)
      · rw [Th.writes_bind, ho]
        refine Set.union_subset (hs.wr.trans fun _ h => .inl h) ?_
        show (progT p).writes _ ⊆ _
        rw [c4]
        exact hp.wr.trans fun _ h => .inr h
    | abort =>
      rw [he] at hs
      have ho : ((stmtT s).run ρ).2 = .abort := hs.out
      dsimp only
      refine ⟨?_, fun _ h => (by cases h), ?_, ?_⟩
      · rw [Th.run_bind, ho]; rfl
      · rw [Th.reads_bind, ho]
        refine Set.union_subset (hs.rd.trans ?_) (fun _ h => h.elim)
        rintro x (h | h)
        · exact .inl (.inl h)
        · exact .inr (.inl h)
      · rw [Th.writes_bind, ho]
        exact Set.union_subset (hs.wr.trans fun _ h => .inl h) (fun _ h => h.elim)
    | ub =>
      rw [he] at hs
      have ho : ((stmtT s).run ρ).2 = .ub := hs.out
      dsimp only
      refine ⟨?_, fun _ h => (by cases h), ?_, ?_⟩
      · rw [Th.run_bind, ho]; rfl
      · rw [Th.reads_bind, ho]
        refine Set.union_subset (hs.rd.trans ?_) (fun _ h => h.elim)
        rintro x (h | h)
        · exact .inl (.inl h)
        · exact .inr (.inl h)
      · rw [Th.writes_bind, ho]
        exact Set.union_subset (hs.wr.trans fun _ h => .inl h) (fun _ h => h.elim)

end TooN.Expr
