import Verif.Proof.ExprOps
/-!
# C65: whole expressions

A TooN expression built from any nesting of the vector and matrix operators, conversions, views and
`Ones`/`Identity` terms, over operands of any mixture of static, dynamic and resizable sizes, never
touches memory it should not, is accepted exactly when it makes sense mathematically, and then has the
mathematical value and size.
-/
set_option linter.unusedSectionVars false
set_option linter.unusedSimpArgs false
namespace TooN.Expr
open Matrix
open TooN.Checks (sizer)

variable {K : Type} [Field K]

/-- the object holds the value -/
def Rep : {k : Knd} → CVal K k → Val K k → Prop
  | _, a, .s x => a = x
  | _, a, .v x => RepV a x
  | _, a, .m X => RepM a X

/-- the template sizes of an object -/
def ty : {k : Knd} → CVal K k → Ty k
  | .s, _ => ()
  | .v, a => a.S
  | .m, a => (a.R, a.C)

/-- The program's variables hold the values the mathematical environment gives them. -/
structure EnvRep (ρ : CEnv K) (σ : SEnv K) : Prop where
  v : ∀ i, (ρ.v i = none ∧ σ.v i = none) ∨ ∃ b S, ∃ n, ∃ x : Fin n → K,
    ρ.v i = some b ∧ σ.v i = some (S, .v x) ∧ b.S = S.toInt ∧ RepV b x
  m : ∀ i, (ρ.m i = none ∧ σ.m i = none) ∨ ∃ b S S', ∃ r c, ∃ X : Matrix (Fin r) (Fin c) K,
    ρ.m i = some b ∧ σ.m i = some ((S, S'), .m X) ∧ b.R = S.toInt ∧ b.C = S'.toInt ∧ RepM b X

/-- The known restrictions of the library: element access is unchecked, `^` exists only for `Vector<3>` (not for a dynamic vector of
size 3), `as_row()`/`as_col()` are broken for `Vector<Resizable>` (C60), and a `Vector<Resizable>` must
not be empty (C07).  `Quirk` says that some part of the expression runs into one of them. -/
def Quirk (Γ : TEnv) (σ : SEnv K) : {k : Knd} → Ex K k → Prop
  | _, .lit _ => False
  | _, .dot a b => Quirk Γ σ a ∨ Quirk Γ σ b
  | _, .idx a i => Quirk Γ σ a ∨ ∃ n, ∃ x : Fin n → K, Den σ a (.v x) ∧ ¬ (0 ≤ i ∧ i < n)
  | _, .el A i j => Quirk Γ σ A ∨ ∃ r c, ∃ X : Matrix (Fin r) (Fin c) K, Den σ A (.m X) ∧
      ¬ ((0 ≤ i ∧ i < r) ∧ 0 ≤ j ∧ j < c)
  | _, .varV _ => False
  | _, .onesV S n s => Quirk Γ σ s ∨ (S = .rsz ∧ n = 0)
  | _, .convV S a => Quirk Γ σ a ∨ (S = .rsz ∧ ∃ x : Fin 0 → K, Den σ a (.v x))
  | _, .binV _ a b => Quirk Γ σ a ∨ Quirk Γ σ b
  | _, .negV a => Quirk Γ σ a
  | _, .scaV _ a s => Quirk Γ σ a ∨ Quirk Γ σ s
  | _, .onesOpV _ a s => Quirk Γ σ a ∨ Quirk Γ σ s
  | _, .cross a b => (Quirk Γ σ a ∨ Quirk Γ σ b) ∨
      (comp Γ a = some Checks.Dynamic ∨ comp Γ a = some Checks.Resizable) ∨
      (comp Γ b = some Checks.Dynamic ∨ comp Γ b = some Checks.Resizable)
  | _, .mulMV A a => Quirk Γ σ A ∨ Quirk Γ σ a
  | _, .mulVM a A => Quirk Γ σ a ∨ Quirk Γ σ A
  | _, .diagMulV a b => Quirk Γ σ a ∨ Quirk Γ σ b
  | _, .sliceV a _ _ => Quirk Γ σ a
  | _, .row A i => Quirk Γ σ A ∨ ∃ r c, ∃ X : Matrix (Fin r) (Fin c) K, Den σ A (.m X) ∧
      ¬ (0 ≤ i ∧ i < r)
  | _, .diagS A => Quirk Γ σ A
  | _, .varM _ => False
  | _, .onesM _ _ _ _ s => Quirk Γ σ s
  | _, .identM _ _ _ s => Quirk Γ σ s
  | _, .convM _ _ A => Quirk Γ σ A
  | _, .binM _ A B => Quirk Γ σ A ∨ Quirk Γ σ B
  | _, .negM A => Quirk Γ σ A
  | _, .scaM _ A s => Quirk Γ σ A ∨ Quirk Γ σ s
  | _, .onesOpM _ A s => Quirk Γ σ A ∨ Quirk Γ σ s
  | _, .identOpM _ A s => Quirk Γ σ A ∨ Quirk Γ σ s
  | _, .mulMM A B => Quirk Γ σ A ∨ Quirk Γ σ B
  | _, .mulMD A a => Quirk Γ σ A ∨ Quirk Γ σ a
  | _, .mulDM a A => Quirk Γ σ a ∨ Quirk Γ σ A
  | _, .transp A => Quirk Γ σ A
  | _, .sliceM A _ _ _ _ => Quirk Γ σ A
  | _, .asCol a => Quirk Γ σ a ∨ comp Γ a = some Checks.Resizable
  | _, .asRow a => Quirk Γ σ a ∨ comp Γ a = some Checks.Resizable

/-- outcome of running a well-typed expression -/
def Res (σ : SEnv K) (q : Prop) {k : Knd} (e : Ex K k) (t : Ty k) (out : Outcome (CVal K k)) : Prop :=
  match out with
  | .ok b => ty b = t ∧ ∃ x, Rep b x ∧ ∀ y, Den σ e y ↔ y = x
  | .abort => ∀ x, ¬ Den σ e x
  | .ub => q

/-- compile-time and run-time outcome -/
def Good (ρ : CEnv K) (σ : SEnv K) {k : Knd} (e : Ex K k) : Prop :=
  match comp ρ.types e with
  | none => (∀ x, ¬ Den σ e x) ∨ Quirk ρ.types σ e
  | some t => Res σ (Quirk ρ.types σ e) e t (run ρ e)

/-- combining compile-time and run-time outcome of one operator -/
def Fin1 (σ : SEnv K) (q : Prop) {k : Knd} (e : Ex K k) (ct : Option (Ty k))
    (out : Outcome (CVal K k)) : Prop :=
  match ct with
  | none => (∀ x, ¬ Den σ e x) ∨ q
  | some t => Res σ q e t out

theorem good_un (ρ : CEnv K) (σ : SEnv K) {k k1 : Knd} (e : Ex K k) (a : Ex K k1)
    (f : CVal K k1 → Outcome (CVal K k)) (cf : Ty k1 → Option (Ty k))
    (hrun : run ρ e = (run ρ a).bind f)
    (hcomp : comp ρ.types e = (comp ρ.types a).bind cf)
    (hq : Quirk ρ.types σ a → Quirk ρ.types σ e)
    (hden : ∀ y, Den σ e y → ∃ x1, Den σ a x1)
    (main : ∀ a' x1, comp ρ.types a = some (ty a') → Rep a' x1 → (∀ y, Den σ a y ↔ y = x1) →
      Fin1 σ (Quirk ρ.types σ e) e (cf (ty a')) (f a'))
    (ha : Good ρ σ a) : Good ρ σ e := by
  unfold Good at *
  rw [hcomp, hrun]
  cases hc : comp ρ.types a with
  | none =>
    rw [hc] at ha
    rcases ha with ha | ha
    · exact Or.inl fun x hx => by obtain ⟨x1, h1⟩ := hden x hx; exact ha x1 h1
    · exact Or.inr (hq ha)
  | some t =>
    rw [hc] at ha
    dsimp only [Option.bind_some] at ha ⊢
    cases hr : run ρ a with
    | ok a' =>
      rw [hr] at ha
      obtain ⟨h1, x, h2, h3⟩ := ha
      have := main a' x (by rw [hc, h1]) h2 h3
      rw [h1] at this
      exact this
    | abort =>
      rw [hr] at ha
      have hno : ∀ x, ¬ Den σ e x := fun x hx => by
        obtain ⟨x1, h1⟩ := hden x hx; exact ha x1 h1
      cases cf t with
      | none => exact Or.inl hno
      | some t => exact hno
    | ub =>
      rw [hr] at ha
      cases cf t with
      | none => exact Or.inr (hq ha)
      | some t => exact hq ha

theorem good_bin (ρ : CEnv K) (σ : SEnv K) {k k1 k2 : Knd} (e : Ex K k) (a : Ex K k1) (b : Ex K k2)
    (f : CVal K k1 → CVal K k2 → Outcome (CVal K k)) (cf : Ty k1 → Ty k2 → Option (Ty k))
    (hrun : run ρ e = (run ρ a).bind fun a => (run ρ b).bind fun b => f a b)
    (hcomp : comp ρ.types e = (comp ρ.types a).bind fun s => (comp ρ.types b).bind fun t => cf s t)
    (hq : Quirk ρ.types σ a ∨ Quirk ρ.types σ b → Quirk ρ.types σ e)
    (hden : ∀ y, Den σ e y → ∃ x1 x2, Den σ a x1 ∧ Den σ b x2)
    (main : ∀ a' b' x1 x2, comp ρ.types a = some (ty a') → comp ρ.types b = some (ty b') →
      Rep a' x1 → Rep b' x2 → (∀ y, Den σ a y ↔ y = x1) → (∀ y, Den σ b y ↔ y = x2) →
      Fin1 σ (Quirk ρ.types σ e) e (cf (ty a') (ty b')) (f a' b'))
    (ha : Good ρ σ a) (hb : Good ρ σ b) : Good ρ σ e := by
  have hnoa : (∀ x, ¬ Den σ a x) → ∀ x, ¬ Den σ e x := fun h x hx => by
    obtain ⟨x1, _, h1, _⟩ := hden x hx; exact h x1 h1
  have hnob : (∀ x, ¬ Den σ b x) → ∀ x, ¬ Den σ e x := fun h x hx => by
    obtain ⟨_, x2, _, h2⟩ := hden x hx; exact h x2 h2
  unfold Good at *
  rw [hcomp, hrun]
  cases hc : comp ρ.types a with
  | none =>
    rw [hc] at ha
    rcases ha with ha | ha
    · exact Or.inl (hnoa ha)
    · exact Or.inr (hq (Or.inl ha))
  | some s =>
    rw [hc] at ha
    dsimp only [Option.bind_some] at ha ⊢
    cases hc' : comp ρ.types b with
    | none =>
      rw [hc'] at hb
      rcases hb with hb | hb
      · exact Or.inl (hnob hb)
      · exact Or.inr (hq (Or.inr hb))
    | some t =>
      rw [hc'] at hb
      dsimp only [Option.bind_some] at hb ⊢
      cases hr : run ρ a with
      | ok a' =>
        rw [hr] at ha
        obtain ⟨h1, x, h2, h3⟩ := ha
        cases hr' : run ρ b with
        | ok b' =>
          rw [hr'] at hb
          obtain ⟨h1', x', h2', h3'⟩ := hb
          have := main a' b' x x' (by rw [hc, h1]) (by rw [hc', h1']) h2 h2' h3 h3'
          rw [h1, h1'] at this
          exact this
        | abort =>
          rw [hr'] at hb
          cases cf s t with
          | none => exact Or.inl (hnob hb)
          | some t => exact hnob hb
        | ub =>
          rw [hr'] at hb
          cases cf s t with
          | none => exact Or.inr (hq (Or.inr hb))
          | some t => exact hq (Or.inr hb)
      | abort =>
        rw [hr] at ha
        cases cf s t with
        | none => exact Or.inl (hnoa ha)
        | some t => exact hnoa ha
      | ub =>
        rw [hr] at ha
        cases cf s t with
        | none => exact Or.inr (hq (Or.inl ha))
        | some t => exact hq (Or.inl ha)

theorem accepts_agrees {S : Sz} {n : Nat} : legalV S = true ∧ Agrees S.toInt n ↔ S.Accepts n := by
  cases S with
  | st k =>
    simp only [legalV, Sz.toInt, Agrees, Checks.Dynamic, Checks.Resizable, Sz.Accepts,
      decide_eq_true_eq]
    omega
  | dyn => simp [legalV, Sz.toInt, Agrees, Sz.Accepts]
  | rsz => simp [legalV, Sz.toInt, Agrees, Sz.Accepts, Checks.Dynamic, Checks.Resizable]

theorem acceptsM_agrees {S : Sz} {n : Nat} : legalM S = true ∧ AgreesM S.toInt n ↔ S.AcceptsM n := by
  cases S with
  | st k =>
    simp only [legalM, Sz.toInt, AgreesM, Checks.Dynamic, Sz.AcceptsM, decide_eq_true_eq]
    omega
  | dyn => simp [legalM, Sz.toInt, AgreesM, Sz.AcceptsM]
  | rsz => simp [legalM, Sz.AcceptsM]

theorem alloc_sizeFor {S : Sz} {n : Nat} (h : S.Accepts (S.sizeFor n)) :
    (allocV S.toInt n : Outcome (VB K)) = .ok ⟨S.toInt, S.sizeFor n, fun _ => none⟩ := by
  have h' := (accepts_agrees.2 h).2
  cases S with
  | st k =>
    have h0 : 0 < k := h.1
    have e : (Checks.runtimeSize (k : Int) n).toNat = k := by
      unfold Checks.runtimeSize Checks.isStatic Checks.Dynamic Checks.Resizable
      simp only [bne_iff_ne, ne_eq, Bool.and_eq_true]
      rw [if_pos ⟨by omega, by omega⟩]; simp
    simp only [Sz.toInt, Sz.sizeFor]
    unfold allocV
    rw [if_neg (by unfold Checks.Resizable; omega), e]
  | dyn => exact allocV_eq h'
  | rsz => exact allocV_eq h'

theorem alloc_sizeForM {R C : Sz} {r c : Nat} (h : R.AcceptsM (R.sizeFor r))
    (h' : C.AcceptsM (C.sizeFor c)) :
    (allocM R.toInt C.toInt r c : Outcome (MB K)) =
      .ok ⟨R.toInt, C.toInt, R.sizeFor r, C.sizeFor c, fun _ _ => none⟩ := by
  have key : ∀ {S : Sz} {n : Nat}, S.AcceptsM (S.sizeFor n) →
      (Checks.runtimeSize S.toInt n).toNat = S.sizeFor n := by
    intro S n h
    cases S with
    | st k =>
      have h0 : 0 < k := h.1
      unfold Checks.runtimeSize Checks.isStatic Checks.Dynamic Checks.Resizable
      simp only [bne_iff_ne, ne_eq, Bool.and_eq_true, Sz.toInt, Sz.sizeFor]
      rw [if_pos (by omega)]; simp
    | dyn => simp [Checks.runtimeSize, Checks.isStatic, Sz.toInt, Sz.sizeFor]
    | rsz => exact absurd h (by simp [Sz.AcceptsM])
  unfold allocM
  rw [key h, key h']


/-- Size conflicts that the compiler sees are real ones. -/
theorem testC_false {S1 S2 : Int} {n m : Nat} (h1 : Agrees S1 n) (h2 : Agrees S2 m)
    (h : testC S1 S2 = false) : n ≠ m := by
  rintro rfl
  rw [testC_of h1 h2] at h; cases h

theorem conv_ne {a : VB K} {n : Nat} {x : Fin n → K} {S : Sz} (ha : RepV a x) (hl : legalV S = true)
    (h : ¬ Agrees S.toInt n) :
    (S = .rsz ∧ n = 0 ∧ convVB S.toInt a = .ub) ∨ convVB S.toInt a = .abort := by
  cases S with
  | dyn => exact absurd (Or.inl rfl) h
  | rsz =>
    left
    have h0 : n = 0 := by
      by_contra h0
      exact h (Or.inr (Or.inl ⟨rfl, h0⟩))
    refine ⟨rfl, h0, ?_⟩
    unfold convVB allocV
    rw [ha.2.1, if_pos ⟨rfl, h0⟩]; rfl
  | st k =>
    right
    have hk : 0 < k := by simpa [legalV] using hl
    have hne : k ≠ n := by
      rintro rfl
      exact h (Or.inr (Or.inr ⟨by simpa [Sz.toInt] using hk, rfl⟩))
    have hA : Agrees (k : Int) k := Or.inr (Or.inr ⟨by exact_mod_cast hk, rfl⟩)
    unfold convVB
    rw [alloc_sizeFor (S := .st k) ⟨hk, rfl⟩, Outcome.bind_ok]
    have hS : ¬ (Sz.st k).toInt = Checks.Resizable := by
      show ¬ (k : Int) = -0x7fffffff
      omega
    unfold assignV tryResize
    dsimp only
    rw [if_neg hS, Outcome.bind_ok]
    dsimp only [Sz.toInt, Sz.sizeFor]
    rw [ha.2.1, test_eq hA ha.1, if_neg hne]; rfl

theorem convM_ne {A : MB K} {r c : Nat} {X : Matrix (Fin r) (Fin c) K} {R C : Sz} (hA : RepM A X)
    (hR : legalM R = true) (hC : legalM C = true)
    (h : ¬ (AgreesM R.toInt r ∧ AgreesM C.toInt c)) : convMB R.toInt C.toInt A = .abort := by
  have key : ∀ {S : Sz} {n : Nat}, legalM S = true → S.AcceptsM (S.sizeFor n) ∧
      (AgreesM S.toInt n ↔ S.sizeFor n = n) := by
    intro S n hl
    cases S with
    | st k =>
      have hk : 0 < k := by simpa [legalM] using hl
      refine ⟨⟨hk, rfl⟩, ?_⟩
      simp only [AgreesM, Sz.toInt, Sz.sizeFor, Checks.Dynamic]; omega
    | dyn => exact ⟨trivial, by simp [AgreesM, Sz.toInt, Sz.sizeFor]⟩
    | rsz => simp [legalM] at hl
  obtain ⟨k1, k2⟩ := key (n := r) hR
  obtain ⟨k3, k4⟩ := key (n := c) hC
  have a1 := (acceptsM_agrees.2 k1).2
  have a2 := (acceptsM_agrees.2 k3).2
  unfold convMB
  rw [hA.2.2.1, hA.2.2.2.1, alloc_sizeForM k1 k3, Outcome.bind_ok]
  unfold assignM
  dsimp only
  rw [hA.2.2.1, hA.2.2.2.1, test_eq a1.agrees hA.1.agrees, test_eq a2.agrees hA.2.1.agrees]
  by_cases e : R.sizeFor r = r
  · rw [if_pos e, Outcome.bind_ok, if_neg (fun e' => h ⟨k2.2 e, k4.2 e'⟩)]; rfl
  · rw [if_neg e]; rfl

theorem Val.v_inj {n m : Nat} {x : Fin n → K} {y : Fin m → K} (h : (Val.v x : Val K .v) = .v y) :
    n = m := by cases h; rfl
theorem Val.m_inj {r c r' c' : Nat} {X : Matrix (Fin r) (Fin c) K} {Y : Matrix (Fin r') (Fin c') K}
    (h : (Val.m X : Val K .m) = .m Y) : r = r' ∧ c = c' := by cases h; exact ⟨rfl, rfl⟩

theorem fin_ok {σ : SEnv K} {q : Prop} {k : Knd} {e : Ex K k} {ct : Option (Ty k)}
    {out : Outcome (CVal K k)} (r : CVal K k) (x : Val K k) (h1 : out = .ok r) (h2 : ct = some (ty r))
    (h3 : Rep r x) (h4 : Den σ e x) (h5 : ∀ y, Den σ e y → y = x) : Fin1 σ q e ct out := by
  subst h1 h2
  exact ⟨rfl, x, h3, fun y => ⟨h5 y, fun h => h ▸ h4⟩⟩

theorem fin_no {σ : SEnv K} {q : Prop} {k : Knd} {e : Ex K k} {ct : Option (Ty k)}
    {out : Outcome (CVal K k)} (h1 : out = .abort) (h : ∀ x, ¬ Den σ e x) : Fin1 σ q e ct out := by
  subst h1
  cases ct
  · exact Or.inl h
  · exact h

theorem fin_none {σ : SEnv K} {q : Prop} {k : Knd} {e : Ex K k} {ct : Option (Ty k)}
    {out : Outcome (CVal K k)} (h1 : ct = none) (h : (∀ x, ¬ Den σ e x) ∨ q) : Fin1 σ q e ct out := by
  subst h1
  exact h

theorem fin_ub {σ : SEnv K} {q : Prop} {k : Knd} {e : Ex K k} {ct : Option (Ty k)}
    {out : Outcome (CVal K k)} (h1 : out = .ub) (h : q) : Fin1 σ q e ct out := by
  subst h1
  cases ct
  · exact Or.inr h
  · exact h

theorem ty_v {b : VB K} {S : Int} (h : b.S = S) : (some S : Option (Ty .v)) = some (ty (k := .v) b) := by
  subst h; rfl
theorem ty_m {b : MB K} {R C : Int} (h : b.R = R) (h' : b.C = C) :
    (some (R, C) : Option (Ty .m)) = some (ty (k := .m) b) := by
  subst h h'; rfl

variable {ρ : CEnv K} {σ : SEnv K}

theorem good_dot {a : Ex K .v} {b : Ex K .v} (ha : Good ρ σ a) (hb : Good ρ σ b) :
    Good ρ σ (.dot a b) := by
  refine good_bin ρ σ (.dot a b) a b (fun a b => dotB (K := K) a b)
    (fun S1 S2 => if testC S1 S2 then some () else none) rfl rfl id ?_ ?_ ha hb
  · rintro y ⟨⟩; exact ⟨_, _, ‹_›, ‹_›⟩
  · intro a' b' x1 x2 _ _ r1 r2 d1 d2
    cases x1 with
    | @v n x => cases x2 with
    | @v n' y =>
      by_cases h : n = n'
      · subst h
        refine fin_ok _ (.s (x ⬝ᵥ y)) (dotB_ok r1 r2) (if_pos (testC_of r1.1 r2.1)) rfl
          (.dot ((d1 _).2 rfl) ((d2 _).2 rfl)) fun z hz => ?_
        cases hz with | dot p q => cases (d1 _).1 p; cases (d2 _).1 q; rfl
      · exact fin_no (dotB_ne r1 r2 h) fun z hz => by
          cases hz with | dot p q => cases (d1 _).1 p; cases (d2 _).1 q; exact h rfl

theorem good_binV {o : BinV} {a : Ex K .v} {b : Ex K .v} (ha : Good ρ σ a) (hb : Good ρ σ b) :
    Good ρ σ (.binV o a b) := by
  refine good_bin ρ σ (.binV o a b) a b (fun a b => vpairwise (K := K) o a b)
    (fun S1 S2 => if testC S1 S2 then some (sizer S1 S2) else none) rfl rfl id ?_ ?_ ha hb
  · rintro y ⟨⟩; exact ⟨_, _, ‹_›, ‹_›⟩
  · intro a' b' x1 x2 _ _ r1 r2 d1 d2
    cases x1 with
    | @v n x => cases x2 with
    | @v n' y =>
      by_cases h : n = n'
      · subst h
        obtain ⟨b, h1, h2, h3⟩ := vpairwise_ok o r1 r2
        refine fin_ok b (.v (binV o x y)) h1 ((if_pos (testC_of r1.1 r2.1)).trans (ty_v h2)) h3
          (.binV ((d1 _).2 rfl) ((d2 _).2 rfl)) fun z hz => ?_
        cases hz with | binV p q => cases (d1 _).1 p; cases (d2 _).1 q; rfl
      · exact fin_no (vpairwise_ne o r1 r2 h) fun z hz => by
          cases hz with | binV p q => cases (d1 _).1 p; cases (d2 _).1 q; exact h rfl

theorem good_diagMulV {a : Ex K .v} {b : Ex K .v} (ha : Good ρ σ a) (hb : Good ρ σ b) :
    Good ρ σ (.diagMulV a b) := by
  refine good_bin ρ σ (.diagMulV a b) a b (fun a b => diagVec (K := K) a b)
    (fun S1 S2 => if testC S1 S2 then some (sizer S1 S2) else none) rfl rfl id ?_ ?_ ha hb
  · rintro y ⟨⟩; exact ⟨_, _, ‹_›, ‹_›⟩
  · intro a' b' x1 x2 _ _ r1 r2 d1 d2
    cases x1 with
    | @v n x => cases x2 with
    | @v n' y =>
      by_cases h : n = n'
      · subst h
        obtain ⟨b, h1, h2, h3⟩ := diagVec_ok r1 r2
        refine fin_ok b (.v (diagonal x *ᵥ y)) h1 ((if_pos (testC_of r1.1 r2.1)).trans (ty_v h2)) h3
          (.diagMulV ((d1 _).2 rfl) ((d2 _).2 rfl)) fun z hz => ?_
        cases hz with | diagMulV p q => cases (d1 _).1 p; cases (d2 _).1 q; rfl
      · exact fin_no (diagVec_ne r1 r2 h) fun z hz => by
          cases hz with | diagMulV p q => cases (d1 _).1 p; cases (d2 _).1 q; exact h rfl

theorem good_mulMV {a : Ex K .m} {b : Ex K .v} (ha : Good ρ σ a) (hb : Good ρ σ b) :
    Good ρ σ (.mulMV a b) := by
  refine good_bin ρ σ (.mulMV a b) a b (fun a b => matVec (K := K) a b)
    (fun (X : Int × Int) S2 => if testC X.2 S2 then some X.1 else none) rfl rfl id ?_ ?_ ha hb
  · rintro y ⟨⟩; exact ⟨_, _, ‹_›, ‹_›⟩
  · intro a' b' x1 x2 _ _ r1 r2 d1 d2
    cases x1 with
    | @m r c X => cases x2 with
    | @v n' y =>
      by_cases h : c = n'
      · subst h
        obtain ⟨b, h1, h2, h3⟩ := matVec_ok r1 r2
        refine fin_ok b (.v (X *ᵥ y)) h1 ((if_pos (testC_of r1.2.1.agrees r2.1)).trans (ty_v h2)) h3
          (.mulMV ((d1 _).2 rfl) ((d2 _).2 rfl)) fun z hz => ?_
        cases hz with | mulMV p q => cases (d1 _).1 p; cases (d2 _).1 q; rfl
      · exact fin_no (matVec_ne r1 r2 h) fun z hz => by
          cases hz with | mulMV p q => cases (d1 _).1 p; cases (d2 _).1 q; exact h rfl

theorem good_mulVM {a : Ex K .v} {b : Ex K .m} (ha : Good ρ σ a) (hb : Good ρ σ b) :
    Good ρ σ (.mulVM a b) := by
  refine good_bin ρ σ (.mulVM a b) a b (fun a b => vecMat (K := K) a b)
    (fun S1 (Y : Int × Int) => if testC Y.1 S1 then some Y.2 else none) rfl rfl id ?_ ?_ ha hb
  · rintro y ⟨⟩; exact ⟨_, _, ‹_›, ‹_›⟩
  · intro a' b' x1 x2 _ _ r1 r2 d1 d2
    cases x1 with
    | @v n x => cases x2 with
    | @m r' c' Y =>
      by_cases h : n = r'
      · subst h
        obtain ⟨b, h1, h2, h3⟩ := vecMat_ok r2 r1
        refine fin_ok b (.v (x ᵥ* Y)) h1 ((if_pos (testC_of r2.1.agrees r1.1)).trans (ty_v h2)) h3
          (.mulVM ((d1 _).2 rfl) ((d2 _).2 rfl)) fun z hz => ?_
        cases hz with | mulVM p q => cases (d1 _).1 p; cases (d2 _).1 q; rfl
      · exact fin_no (vecMat_ne r2 r1 (Ne.symm h)) fun z hz => by
          cases hz with | mulVM p q => cases (d1 _).1 p; cases (d2 _).1 q; exact h rfl

theorem good_binM {o : BinM} {a : Ex K .m} {b : Ex K .m} (ha : Good ρ σ a) (hb : Good ρ σ b) :
    Good ρ σ (.binM o a b) := by
  refine good_bin ρ σ (.binM o a b) a b (fun a b => mpairwise (K := K) o a b)
    (fun (X : Int × Int) (Y : Int × Int) => if testC X.1 Y.1 && testC X.2 Y.2 then some (sizer X.1 Y.1, sizer X.2 Y.2) else none) rfl rfl id ?_ ?_ ha hb
  · rintro y ⟨⟩; exact ⟨_, _, ‹_›, ‹_›⟩
  · intro a' b' x1 x2 _ _ r1 r2 d1 d2
    cases x1 with
    | @m r c X => cases x2 with
    | @m r' c' Y =>
      by_cases h : r = r' ∧ c = c'
      · obtain ⟨rfl, rfl⟩ := h
        obtain ⟨b, h1, h2, h2', h3⟩ := mpairwise_ok o r1 r2
        refine fin_ok b (.m (binM o X Y)) h1 ((if_pos (by rw [Bool.and_eq_true]; exact ⟨testC_of r1.1.agrees r2.1.agrees, testC_of r1.2.1.agrees r2.2.1.agrees⟩)).trans (ty_m h2 h2')) h3
          (.binM ((d1 _).2 rfl) ((d2 _).2 rfl)) fun z hz => ?_
        cases hz with | binM p q => cases (d1 _).1 p; cases (d2 _).1 q; rfl
      · exact fin_no (mpairwise_ne o r1 r2 (by tauto)) fun z hz => by
          cases hz with | binM p q => cases (d1 _).1 p; cases (d2 _).1 q; exact h ⟨rfl, rfl⟩

theorem good_mulMM {a : Ex K .m} {b : Ex K .m} (ha : Good ρ σ a) (hb : Good ρ σ b) :
    Good ρ σ (.mulMM a b) := by
  refine good_bin ρ σ (.mulMM a b) a b (fun a b => matMat (K := K) a b)
    (fun (X : Int × Int) (Y : Int × Int) => if testC X.2 Y.1 then some (X.1, Y.2) else none) rfl rfl id ?_ ?_ ha hb
  · rintro y ⟨⟩; exact ⟨_, _, ‹_›, ‹_›⟩
  · intro a' b' x1 x2 _ _ r1 r2 d1 d2
    cases x1 with
    | @m r c X => cases x2 with
    | @m r' c' Y =>
      by_cases h : c = r'
      · subst h
        obtain ⟨b, h1, h2, h2', h3⟩ := matMat_ok r1 r2
        refine fin_ok b (.m (X * Y)) h1 ((if_pos (testC_of r1.2.1.agrees r2.1.agrees)).trans (ty_m h2 h2')) h3
          (.mulMM ((d1 _).2 rfl) ((d2 _).2 rfl)) fun z hz => ?_
        cases hz with | mulMM p q => cases (d1 _).1 p; cases (d2 _).1 q; rfl
      · exact fin_no (matMat_ne r1 r2 h) fun z hz => by
          cases hz with | mulMM p q => cases (d1 _).1 p; cases (d2 _).1 q; exact h rfl

theorem good_mulMD {a : Ex K .m} {b : Ex K .v} (ha : Good ρ σ a) (hb : Good ρ σ b) :
    Good ρ σ (.mulMD a b) := by
  refine good_bin ρ σ (.mulMD a b) a b (fun a b => matDiag (K := K) a b)
    (fun (X : Int × Int) S2 => if testC X.2 S2 then some X else none) rfl rfl id ?_ ?_ ha hb
  · rintro y ⟨⟩; exact ⟨_, _, ‹_›, ‹_›⟩
  · intro a' b' x1 x2 _ _ r1 r2 d1 d2
    cases x1 with
    | @m r c X => cases x2 with
    | @v n' y =>
      by_cases h : c = n'
      · subst h
        obtain ⟨b, h1, h2, h2', h3⟩ := matDiag_ok r1 r2
        refine fin_ok b (.m (X * diagonal y)) h1 ((if_pos (testC_of r1.2.1.agrees r2.1)).trans (ty_m h2 h2')) h3
          (.mulMD ((d1 _).2 rfl) ((d2 _).2 rfl)) fun z hz => ?_
        cases hz with | mulMD p q => cases (d1 _).1 p; cases (d2 _).1 q; rfl
      · exact fin_no (matDiag_ne r1 r2 h) fun z hz => by
          cases hz with | mulMD p q => cases (d1 _).1 p; cases (d2 _).1 q; exact h rfl

theorem good_mulDM {a : Ex K .v} {b : Ex K .m} (ha : Good ρ σ a) (hb : Good ρ σ b) :
    Good ρ σ (.mulDM a b) := by
  refine good_bin ρ σ (.mulDM a b) a b (fun a b => diagMat (K := K) a b)
    (fun S1 (Y : Int × Int) => if testC Y.1 S1 then some Y else none) rfl rfl id ?_ ?_ ha hb
  · rintro y ⟨⟩; exact ⟨_, _, ‹_›, ‹_›⟩
  · intro a' b' x1 x2 _ _ r1 r2 d1 d2
    cases x1 with
    | @v n x => cases x2 with
    | @m r' c' Y =>
      by_cases h : n = r'
      · subst h
        obtain ⟨b, h1, h2, h2', h3⟩ := diagMat_ok r2 r1
        refine fin_ok b (.m (diagonal x * Y)) h1 ((if_pos (testC_of r2.1.agrees r1.1)).trans (ty_m h2 h2')) h3
          (.mulDM ((d1 _).2 rfl) ((d2 _).2 rfl)) fun z hz => ?_
        cases hz with | mulDM p q => cases (d1 _).1 p; cases (d2 _).1 q; rfl
      · exact fin_no (diagMat_ne r2 r1 (Ne.symm h)) fun z hz => by
          cases hz with | mulDM p q => cases (d1 _).1 p; cases (d2 _).1 q; exact h rfl

theorem good_scaV {o : Sca} {a : Ex K .v} {s : Ex K .s} (ha : Good ρ σ a) (hs : Good ρ σ s) :
    Good ρ σ (.scaV o a s) := by
  refine good_bin ρ σ (.scaV o a s) a s (fun a (s : K) => applyScalarV (K := K) o a s)
    (fun S1 _ => some S1) rfl rfl id ?_ ?_ ha hs
  · rintro y ⟨⟩; exact ⟨_, _, ‹_›, ‹_›⟩
  · intro a' b' x1 x2 _ _ r1 r2 d1 d2
    cases x1 with
    | @v n x => cases x2 with
    | s k =>
      obtain rfl : b' = k := r2
      obtain ⟨b, h1, h2, h3⟩ := applyScalarV_ok o b' r1
      refine fin_ok b (.v (fun i => sca o (x i) b')) h1 (ty_v h2) h3
        (.scaV ((d1 _).2 rfl) ((d2 _).2 rfl)) fun z hz => ?_
      cases hz with | scaV p q => cases (d1 _).1 p; cases (d2 _).1 q; rfl

theorem good_onesOpV {o : Mode} {a : Ex K .v} {s : Ex K .s} (ha : Good ρ σ a) (hs : Good ρ σ s) :
    Good ρ σ (.onesOpV o a s) := by
  refine good_bin ρ σ (.onesOpV o a s) a s (fun a (s : K) => scalarsV (K := K) o a s)
    (fun S1 _ => some S1) rfl rfl id ?_ ?_ ha hs
  · rintro y ⟨⟩; exact ⟨_, _, ‹_›, ‹_›⟩
  · intro a' b' x1 x2 _ _ r1 r2 d1 d2
    cases x1 with
    | @v n x => cases x2 with
    | s k =>
      obtain rfl : b' = k := r2
      obtain ⟨b, h1, h2, h3⟩ := scalarsV_ok o b' r1
      refine fin_ok b (.v (mode o x (fun _ => b'))) h1 (ty_v h2) h3
        (.onesOpV ((d1 _).2 rfl) ((d2 _).2 rfl)) fun z hz => ?_
      cases hz with | onesOpV p q => cases (d1 _).1 p; cases (d2 _).1 q; rfl

theorem good_scaM {o : Sca} {a : Ex K .m} {s : Ex K .s} (ha : Good ρ σ a) (hs : Good ρ σ s) :
    Good ρ σ (.scaM o a s) := by
  refine good_bin ρ σ (.scaM o a s) a s (fun a (s : K) => applyScalarM (K := K) o a s)
    (fun S1 _ => some S1) rfl rfl id ?_ ?_ ha hs
  · rintro y ⟨⟩; exact ⟨_, _, ‹_›, ‹_›⟩
  · intro a' b' x1 x2 _ _ r1 r2 d1 d2
    cases x1 with
    | @m r c X => cases x2 with
    | s k =>
      obtain rfl : b' = k := r2
      obtain ⟨b, h1, h2, h2', h3⟩ := applyScalarM_ok o b' r1
      refine fin_ok b (.m (fun i j => sca o (X i j) b')) h1 (ty_m h2 h2') h3
        (.scaM ((d1 _).2 rfl) ((d2 _).2 rfl)) fun z hz => ?_
      cases hz with | scaM p q => cases (d1 _).1 p; cases (d2 _).1 q; rfl

theorem good_onesOpM {o : Mode} {a : Ex K .m} {s : Ex K .s} (ha : Good ρ σ a) (hs : Good ρ σ s) :
    Good ρ σ (.onesOpM o a s) := by
  refine good_bin ρ σ (.onesOpM o a s) a s (fun a (s : K) => scalarsM (K := K) o a s)
    (fun S1 _ => some S1) rfl rfl id ?_ ?_ ha hs
  · rintro y ⟨⟩; exact ⟨_, _, ‹_›, ‹_›⟩
  · intro a' b' x1 x2 _ _ r1 r2 d1 d2
    cases x1 with
    | @m r c X => cases x2 with
    | s k =>
      obtain rfl : b' = k := r2
      obtain ⟨b, h1, h2, h2', h3⟩ := scalarsM_ok o b' r1
      refine fin_ok b (.m (mode o X (fun _ _ => b'))) h1 (ty_m h2 h2') h3
        (.onesOpM ((d1 _).2 rfl) ((d2 _).2 rfl)) fun z hz => ?_
      cases hz with | onesOpM p q => cases (d1 _).1 p; cases (d2 _).1 q; rfl

theorem good_negV {a : Ex K .v} (ha : Good ρ σ a) : Good ρ σ (.negV a) := by
  refine good_un ρ σ (.negV a) a (fun a => vnegate (K := K) a) (fun S => some S) rfl ?_ id ?_ ?_ ha
  · show comp ρ.types a = _; cases comp ρ.types a <;> rfl
  · rintro y ⟨⟩; exact ⟨_, ‹_›⟩
  · intro a' x1 _ r1 d1
    cases x1 with
    | @v n x =>
      obtain ⟨b, h1, h2, h3⟩ := vnegate_ok r1
      refine fin_ok b (.v (-x)) h1 (ty_v h2) h3 (.negV ((d1 _).2 rfl)) fun z hz => ?_
      cases hz with | negV p => cases (d1 _).1 p; rfl

theorem good_negM {a : Ex K .m} (ha : Good ρ σ a) : Good ρ σ (.negM a) := by
  refine good_un ρ σ (.negM a) a (fun a => mnegate (K := K) a) (fun S => some S) rfl ?_ id ?_ ?_ ha
  · show comp ρ.types a = _; cases comp ρ.types a <;> rfl
  · rintro y ⟨⟩; exact ⟨_, ‹_›⟩
  · intro a' x1 _ r1 d1
    cases x1 with
    | @m r c X =>
      obtain ⟨b, h1, h2, h2', h3⟩ := mnegate_ok r1
      refine fin_ok b (.m (-X)) h1 (ty_m h2 h2') h3 (.negM ((d1 _).2 rfl)) fun z hz => ?_
      cases hz with | negM p => cases (d1 _).1 p; rfl

theorem good_transp {a : Ex K .m} (ha : Good ρ σ a) : Good ρ σ (.transp a) := by
  refine good_un ρ σ (.transp a) a (fun a => .ok (MB.T (K := K) a)) (fun (X : Int × Int) => some (X.2, X.1)) rfl ?_ id ?_ ?_ ha
  · rfl
  · rintro y ⟨⟩; exact ⟨_, ‹_›⟩
  · intro a' x1 _ r1 d1
    cases x1 with
    | @m r c X =>
      obtain ⟨b, h1, h2, h2', h3⟩ := (⟨_, rfl, rfl, rfl, r1.T⟩ : ∃ b : MB K, (Outcome.ok (MB.T a') : Outcome (MB K)) = .ok b ∧ b.R = a'.C ∧ b.C = a'.R ∧ RepM b Xᵀ)
      refine fin_ok b (.m (Xᵀ)) h1 (ty_m h2 h2') h3 (.transp ((d1 _).2 rfl)) fun z hz => ?_
      cases hz with | transp p => cases (d1 _).1 p; rfl

theorem good_asCol {a : Ex K .v} (ha : Good ρ σ a) : Good ρ σ (.asCol a) := by
  refine good_un ρ σ (.asCol a) a (fun a => asColB (K := K) a) (fun (S : Int) => some (S, (1 : Int))) rfl rfl
    Or.inl ?_ ?_ ha
  · rintro y ⟨⟩; exact ⟨_, ‹_›⟩
  · intro a' x1 c1 r1 d1
    cases x1 with
    | @v n x =>
      by_cases h : VB.S a' = Checks.Resizable
      · exact fin_ub (by unfold asColB; rw [if_pos h]) (Or.inr (c1.trans (congrArg some h)))
      obtain ⟨b, h1, h2, h2', h3⟩ := asColB_ok r1 h
      refine fin_ok b (.m (fun (i : Fin n) (_ : Fin 1) => x i)) h1 (ty_m h2 h2') h3 (.asCol ((d1 _).2 rfl)) fun z hz => ?_
      cases hz with | asCol p => cases (d1 _).1 p; rfl

theorem good_asRow {a : Ex K .v} (ha : Good ρ σ a) : Good ρ σ (.asRow a) := by
  refine good_un ρ σ (.asRow a) a (fun a => asRowB (K := K) a) (fun (S : Int) => some ((1 : Int), S)) rfl rfl
    Or.inl ?_ ?_ ha
  · rintro y ⟨⟩; exact ⟨_, ‹_›⟩
  · intro a' x1 c1 r1 d1
    cases x1 with
    | @v n x =>
      by_cases h : VB.S a' = Checks.Resizable
      · exact fin_ub (by unfold asRowB; rw [if_pos h]) (Or.inr (c1.trans (congrArg some h)))
      obtain ⟨b, h1, h2, h2', h3⟩ := asRowB_ok r1 h
      refine fin_ok b (.m (fun (_ : Fin 1) (i : Fin n) => x i)) h1 (ty_m h2 h2') h3 (.asRow ((d1 _).2 rfl)) fun z hz => ?_
      cases hz with | asRow p => cases (d1 _).1 p; rfl

theorem good_cross {a b : Ex K .v} (ha : Good ρ σ a) (hb : Good ρ σ b) : Good ρ σ (.cross a b) := by
  refine good_bin ρ σ (.cross a b) a b (fun a b => crossB (K := K) a b)
    (fun (S1 : Int) (S2 : Int) => if S1 = 3 ∧ S2 = 3 then some (3 : Int) else none) rfl rfl Or.inl
    ?_ ?_ ha hb
  · rintro y ⟨⟩; exact ⟨_, _, ‹_›, ‹_›⟩
  · intro a' b' x1 x2 c1 c2 r1 r2 d1 d2
    cases x1 with
    | @v n x => cases x2 with
    | @v n' y =>
      by_cases h : VB.S a' = 3 ∧ VB.S b' = 3
      · have e1 : n = 3 := by
          have := r1.1; rw [h.1] at this
          unfold Agrees Checks.Dynamic Checks.Resizable at this; omega
        have e2 : n' = 3 := by
          have := r2.1; rw [h.2] at this
          unfold Agrees Checks.Dynamic Checks.Resizable at this; omega
        subst e1 e2
        obtain ⟨b, h1, h2, h3⟩ := crossB_ok r1 r2
        refine fin_ok b (.v (crossProduct x y)) h1 ((if_pos h).trans (ty_v h2)) h3
          (.cross ((d1 _).2 rfl) ((d2 _).2 rfl)) fun z hz => ?_
        cases hz with | cross p q => cases (d1 _).1 p; cases (d2 _).1 q; rfl
      · refine fin_none (if_neg h) ?_
        by_cases e : n = 3 ∧ n' = 3
        · right; right
          obtain ⟨rfl, rfl⟩ := e
          rcases r1.1 with k | k | k
          · exact Or.inl (Or.inl (c1.trans (congrArg some k)))
          · exact Or.inl (Or.inr (c1.trans (congrArg some k.1)))
          · rcases r2.1 with k' | k' | k'
            · exact Or.inr (Or.inl (c2.trans (congrArg some k')))
            · exact Or.inr (Or.inr (c2.trans (congrArg some k'.1)))
            · exact absurd ⟨k.2, k'.2⟩ h
        · left
          intro z hz
          cases hz with | cross p q => cases (d1 _).1 p; cases (d2 _).1 q; exact e ⟨rfl, rfl⟩

theorem good_sliceV {a : Ex K .v} {start length : Int} (ha : Good ρ σ a) :
    Good ρ σ (.sliceV a start length) := by
  refine good_un ρ σ (.sliceV a start length) a (fun a => sliceB (K := K) a start length)
    (fun _ => some Checks.Dynamic) rfl rfl id ?_ ?_ ha
  · rintro y ⟨⟩; exact ⟨_, ‹_›⟩
  · intro a' x1 _ r1 d1
    cases x1 with
    | @v n x =>
      by_cases h : 0 ≤ start ∧ 0 ≤ length ∧ start + length ≤ n
      · obtain ⟨s, rfl⟩ := Int.eq_ofNat_of_zero_le h.1
        obtain ⟨l, rfl⟩ := Int.eq_ofNat_of_zero_le h.2.1
        have hsl : s + l ≤ n := by omega
        obtain ⟨b, h1, h2, h3⟩ := sliceB_ok r1 hsl
        refine fin_ok b (.v (fun i : Fin l => x ⟨s + i, Nat.lt_of_lt_of_le (Nat.add_lt_add_left i.2 s) hsl⟩)) h1 (ty_v h2) h3
          (.sliceV ((d1 _).2 rfl) rfl rfl hsl) fun z hz => ?_
        cases hz with
        | sliceV p q1 q2 q3 =>
          cases (d1 _).1 p; obtain rfl := Int.ofNat.inj q1; obtain rfl := Int.ofNat.inj q2; rfl
      · exact fin_no (sliceB_ne r1 h) fun z hz => by
          cases hz with
          | sliceV p q1 q2 q3 => cases (d1 _).1 p; exact h (by omega)

theorem good_convV {S : Sz} {a : Ex K .v} (ha : Good ρ σ a) : Good ρ σ (.convV S a) := by
  refine good_un ρ σ (.convV S a) a (fun a => convVB (K := K) S.toInt a)
    (fun S1 => if legalV S && testC S.toInt S1 then some S.toInt else none) rfl rfl Or.inl ?_ ?_ ha
  · rintro y ⟨⟩; exact ⟨_, ‹_›⟩
  · intro a' x1 _ r1 d1
    cases x1 with
    | @v n x =>
      have hno : ¬ S.Accepts n → ∀ z, ¬ Den σ (.convV S a) z := fun h z hz => by
        cases hz with | convV p q => cases (d1 _).1 p; exact h q
      by_cases hl : legalV S = true
      · by_cases hA : Agrees S.toInt n
        · obtain ⟨b, h1, h2, h3⟩ := convVB_ok r1 hA
          refine fin_ok b (.v x) h1 ((if_pos ?_).trans (ty_v h2)) h3
            (.convV ((d1 _).2 rfl) (accepts_agrees.1 ⟨hl, hA⟩)) fun z hz => ?_
          · rw [Bool.and_eq_true]; exact ⟨hl, testC_of hA r1.1⟩
          · cases hz with | convV p q => cases (d1 _).1 p; rfl
        · rcases conv_ne r1 hl hA with ⟨rfl, rfl, h⟩ | h
          · exact fin_ub h (Or.inr ⟨rfl, x, (d1 _).2 rfl⟩)
          · exact fin_no h (hno fun h' => hA (accepts_agrees.2 h').2)
      · refine fin_none (if_neg ?_) (Or.inl (hno fun h' => hl (accepts_agrees.2 h').1))
        rw [Bool.and_eq_true]; exact fun h => hl h.1

theorem good_convM {R C : Sz} {A : Ex K .m} (ha : Good ρ σ A) : Good ρ σ (.convM R C A) := by
  refine good_un ρ σ (.convM R C A) A (fun a => convMB (K := K) R.toInt C.toInt a)
    (fun (RC : Int × Int) => if legalM R && legalM C && testC R.toInt RC.1 && testC C.toInt RC.2 then
        some (R.toInt, C.toInt) else none) rfl rfl id ?_ ?_ ha
  · rintro y ⟨⟩; exact ⟨_, ‹_›⟩
  · intro a' x1 _ r1 d1
    cases x1 with
    | @m r c X =>
      have hno : ¬ (R.AcceptsM r ∧ C.AcceptsM c) → ∀ z, ¬ Den σ (.convM R C A) z := fun h z hz => by
        cases hz with | convM p q q' => cases (d1 _).1 p; exact h ⟨q, q'⟩
      by_cases hl : legalM R = true ∧ legalM C = true
      · by_cases hA : AgreesM R.toInt r ∧ AgreesM C.toInt c
        · obtain ⟨b, h1, h2, h2', h3⟩ := convMB_ok r1 hA.1 hA.2
          refine fin_ok b (.m X) h1 ((if_pos ?_).trans (ty_m h2 h2')) h3
            (.convM ((d1 _).2 rfl) (acceptsM_agrees.1 ⟨hl.1, hA.1⟩) (acceptsM_agrees.1 ⟨hl.2, hA.2⟩))
            fun z hz => ?_
          · simp only [Bool.and_eq_true]
            exact ⟨⟨hl, testC_of hA.1.agrees r1.1.agrees⟩, testC_of hA.2.agrees r1.2.1.agrees⟩
          · cases hz with | convM p q q' => cases (d1 _).1 p; rfl
        · exact fin_no (convM_ne r1 hl.1 hl.2 hA)
            (hno fun h' => hA ⟨(acceptsM_agrees.2 h'.1).2, (acceptsM_agrees.2 h'.2).2⟩)
      · refine fin_none (if_neg ?_)
          (Or.inl (hno fun h' => hl ⟨(acceptsM_agrees.2 h'.1).1, (acceptsM_agrees.2 h'.2).1⟩))
        simp only [Bool.and_eq_true]; exact fun h => hl h.1.1

theorem legalV_sizeFor {S : Sz} {n : Nat} (hl : legalV S = true) (h : ¬ (S = .rsz ∧ n = 0)) :
    S.Accepts (S.sizeFor n) := by
  cases S with
  | st k => exact ⟨by simpa [legalV] using hl, rfl⟩
  | dyn => trivial
  | rsz => exact fun e => h ⟨rfl, e⟩

theorem legalM_sizeFor {S : Sz} {n : Nat} (hl : legalM S = true) : S.AcceptsM (S.sizeFor n) := by
  cases S with
  | st k => exact ⟨by simpa [legalM] using hl, rfl⟩
  | dyn => trivial
  | rsz => simp [legalM] at hl

theorem good_onesV {S : Sz} {n : Nat} {s : Ex K .s} (ha : Good ρ σ s) : Good ρ σ (.onesV S n s) := by
  refine good_un ρ σ (.onesV S n s) s (fun (s : K) => onesVB (K := K) S.toInt n s)
    (fun _ => if legalV S then some S.toInt else none) rfl rfl Or.inl ?_ ?_ ha
  · rintro y ⟨⟩; exact ⟨_, ‹_›⟩
  · intro a' x1 _ r1 d1
    cases x1 with
    | s k =>
      obtain rfl : a' = k := r1
      by_cases hl : legalV S = true
      · by_cases hq : S = .rsz ∧ n = 0
        · exact fin_ub (by unfold onesVB allocV; rw [if_pos ⟨by rw [hq.1]; rfl, hq.2⟩]; rfl) (Or.inr hq)
        · have hA := legalV_sizeFor hl hq
          obtain ⟨b, h1, h2, h3⟩ := onesVB_ok (accepts_agrees.2 hA).2 (alloc_sizeFor hA) a'
          refine fin_ok b (.v (fun _ : Fin (S.sizeFor n) => a')) h1 ((if_pos hl).trans (ty_v h2)) h3
            (.onesV hA ((d1 _).2 rfl)) fun z hz => ?_
          cases hz with | onesV p q => cases (d1 _).1 q; rfl
      · refine fin_none (if_neg hl) (Or.inl fun z hz => ?_)
        cases hz with | onesV p q => exact hl (accepts_agrees.2 p).1

theorem good_onesM {R C : Sz} {r c : Nat} {s : Ex K .s} (ha : Good ρ σ s) :
    Good ρ σ (.onesM R C r c s) := by
  refine good_un ρ σ (.onesM R C r c s) s (fun (s : K) => onesMB (K := K) R.toInt C.toInt r c s)
    (fun _ => if legalM R && legalM C then some (R.toInt, C.toInt) else none) rfl rfl id ?_ ?_ ha
  · rintro y ⟨⟩; exact ⟨_, ‹_›⟩
  · intro a' x1 _ r1 d1
    cases x1 with
    | s k =>
      obtain rfl : a' = k := r1
      by_cases hl : legalM R = true ∧ legalM C = true
      · have hR := legalM_sizeFor (n := r) hl.1
        have hC := legalM_sizeFor (n := c) hl.2
        obtain ⟨b, h1, h2, h2', h3⟩ := onesMB_ok (acceptsM_agrees.2 hR).2 (acceptsM_agrees.2 hC).2
          (alloc_sizeForM hR hC) a'
        refine fin_ok b (.m (fun (_ : Fin (R.sizeFor r)) (_ : Fin (C.sizeFor c)) => a')) h1
          ((if_pos (by rw [Bool.and_eq_true]; exact hl)).trans (ty_m h2 h2')) h3
          (.onesM hR hC ((d1 _).2 rfl)) fun z hz => ?_
        cases hz with | onesM p p' q => cases (d1 _).1 q; rfl
      · refine fin_none (if_neg (by rw [Bool.and_eq_true]; exact hl)) (Or.inl fun z hz => ?_)
        cases hz with
        | onesM p p' q => exact hl ⟨(acceptsM_agrees.2 p).1, (acceptsM_agrees.2 p').1⟩

theorem good_identM {R C : Sz} {n : Nat} {s : Ex K .s} (ha : Good ρ σ s) :
    Good ρ σ (.identM R C n s) := by
  refine good_un ρ σ (.identM R C n s) s (fun (s : K) => identMB (K := K) R.toInt C.toInt n s)
    (fun _ => if legalM R && legalM C && testC R.toInt C.toInt then some (R.toInt, C.toInt) else none)
    rfl rfl id ?_ ?_ ha
  · rintro y ⟨⟩; exact ⟨_, ‹_›⟩
  · intro a' x1 _ r1 d1
    cases x1 with
    | s k =>
      obtain rfl : a' = k := r1
      by_cases hl : legalM R = true ∧ legalM C = true
      · have hR := legalM_sizeFor (n := n) hl.1
        have hC := legalM_sizeFor (n := n) hl.2
        have aR := (acceptsM_agrees.2 hR).2
        have aC := (acceptsM_agrees.2 hC).2
        have hal : identMB (K := K) R.toInt C.toInt n a' =
            identEval a' ⟨R.toInt, C.toInt, R.sizeFor n, C.sizeFor n, fun _ _ => none⟩ := by
          unfold identMB; rw [alloc_sizeForM hR hC, Outcome.bind_ok]
        by_cases e : R.sizeFor n = C.sizeFor n
        · have hC' : C.AcceptsM (R.sizeFor n) := by rw [e]; exact hC
          have aC' := (acceptsM_agrees.2 hC').2
          obtain ⟨b, h1, h2, h2', h3⟩ := identEval_ok (K := K)
            (m := ⟨R.toInt, C.toInt, R.sizeFor n, C.sizeFor n, fun _ _ => none⟩) aR aC' rfl e.symm a'
          refine fin_ok b (.m (a' • (1 : Matrix (Fin (R.sizeFor n)) (Fin (R.sizeFor n)) K)))
            (hal.trans h1) ((if_pos ?_).trans (ty_m h2 h2')) h3
            (.identM hR hC' rfl e.symm ((d1 _).2 rfl)) fun z hz => ?_
          · simp only [Bool.and_eq_true]; exact ⟨hl, testC_of aR.agrees aC'.agrees⟩
          · cases hz with | identM p p' q q' w => cases (d1 _).1 w; subst q; rfl
        · refine fin_no (hal.trans (identEval_ne aR aC rfl rfl e a')) fun z hz => ?_
          cases hz with | identM p p' q q' w => exact e (q.trans q'.symm)
      · refine fin_none (if_neg ?_) (Or.inl fun z hz => ?_)
        · simp only [Bool.and_eq_true]; exact fun h => hl h.1
        · cases hz with
          | identM p p' q => exact hl ⟨(acceptsM_agrees.2 p).1, (acceptsM_agrees.2 p').1⟩

theorem good_identOpM {o : Mode} {a : Ex K .m} {s : Ex K .s} (ha : Good ρ σ a) (hs : Good ρ σ s) :
    Good ρ σ (.identOpM o a s) := by
  refine good_bin ρ σ (.identOpM o a s) a s (fun a (s : K) => addIdent (K := K) o a s)
    (fun (X : Int × Int) _ => if testC X.1 X.2 then some X else none) rfl rfl id ?_ ?_ ha hs
  · rintro y ⟨⟩; exact ⟨_, _, ‹_›, ‹_›⟩
  · intro a' b' x1 x2 _ _ r1 r2 d1 d2
    cases x1 with
    | @m r c X => cases x2 with
    | s k =>
      obtain rfl : b' = k := r2
      by_cases h : r = c
      · subst h
        obtain ⟨b, h1, h2, h2', h3⟩ := addIdent_ok o b' r1
        refine fin_ok b (.m (mode o X (b' • (1 : Matrix (Fin r) (Fin r) K)))) h1
          ((if_pos (testC_of r1.1.agrees r1.2.1.agrees)).trans (ty_m h2 h2')) h3
          (.identOpM ((d1 _).2 rfl) ((d2 _).2 rfl)) fun z hz => ?_
        cases hz with | identOpM p q => cases (d1 _).1 p; cases (d2 _).1 q; rfl
      · exact fin_no (addIdent_ne o b' r1 h) fun z hz => by
          cases hz with | identOpM p q => cases (d1 _).1 p; exact h rfl

theorem good_idx {a : Ex K .v} {i : Int} (ha : Good ρ σ a) : Good ρ σ (.idx a i) := by
  refine good_un ρ σ (.idx a i) a (fun a => idxB (K := K) a i) (fun _ => some ()) rfl rfl Or.inl ?_ ?_ ha
  · rintro y ⟨⟩; exact ⟨_, ‹_›⟩
  · intro a' x1 _ r1 d1
    cases x1 with
    | @v n x =>
      by_cases h : 0 ≤ i ∧ i < n
      · obtain ⟨k, rfl⟩ := Int.eq_ofNat_of_zero_le h.1
        have hk : k < n := by omega
        refine fin_ok _ (.s (x ⟨k, hk⟩)) (idxB_ok r1 hk) rfl rfl (.idx ((d1 _).2 rfl) rfl hk)
          fun z hz => ?_
        cases hz with
        | idx p q1 q2 => cases (d1 _).1 p; obtain rfl := Int.ofNat.inj q1; rfl
      · exact fin_ub (idxB_ub r1 h) (Or.inr ⟨n, x, (d1 _).2 rfl, h⟩)

theorem good_el {A : Ex K .m} {i j : Int} (ha : Good ρ σ A) : Good ρ σ (.el A i j) := by
  refine good_un ρ σ (.el A i j) A (fun a => elB (K := K) a i j) (fun _ => some ()) rfl rfl Or.inl
    ?_ ?_ ha
  · rintro y ⟨⟩; exact ⟨_, ‹_›⟩
  · intro a' x1 _ r1 d1
    cases x1 with
    | @m r c X =>
      by_cases h : (0 ≤ i ∧ i < r) ∧ 0 ≤ j ∧ j < c
      · obtain ⟨k, rfl⟩ := Int.eq_ofNat_of_zero_le h.1.1
        obtain ⟨l, rfl⟩ := Int.eq_ofNat_of_zero_le h.2.1
        have hk : k < r := by omega
        have hl : l < c := by omega
        refine fin_ok _ (.s (X ⟨k, hk⟩ ⟨l, hl⟩)) (elB_ok r1 hk hl) rfl rfl
          (.el ((d1 _).2 rfl) rfl rfl hk hl) fun z hz => ?_
        cases hz with
        | el p q1 q2 q3 q4 =>
          cases (d1 _).1 p; obtain rfl := Int.ofNat.inj q1; obtain rfl := Int.ofNat.inj q2; rfl
      · exact fin_ub (elB_ub r1 h) (Or.inr ⟨r, c, X, (d1 _).2 rfl, h⟩)

theorem good_row {A : Ex K .m} {i : Int} (ha : Good ρ σ A) : Good ρ σ (.row A i) := by
  refine good_un ρ σ (.row A i) A (fun a => rowB (K := K) a i) (fun (X : Int × Int) => some X.2)
    rfl rfl Or.inl ?_ ?_ ha
  · rintro y ⟨⟩; exact ⟨_, ‹_›⟩
  · intro a' x1 _ r1 d1
    cases x1 with
    | @m r c X =>
      by_cases h : 0 ≤ i ∧ i < r
      · obtain ⟨k, rfl⟩ := Int.eq_ofNat_of_zero_le h.1
        have hk : k < r := by omega
        obtain ⟨b, h1, h2, h3⟩ := rowB_ok r1 hk
        refine fin_ok b (.v (X ⟨k, hk⟩)) h1 (ty_v h2) h3 (.row ((d1 _).2 rfl) rfl hk) fun z hz => ?_
        cases hz with
        | row p q1 q2 => cases (d1 _).1 p; obtain rfl := Int.ofNat.inj q1; rfl
      · exact fin_ub (rowB_ub r1 h) (Or.inr ⟨r, c, X, (d1 _).2 rfl, h⟩)

theorem good_diagS {A : Ex K .m} (ha : Good ρ σ A) : Good ρ σ (.diagS A) := by
  refine good_un ρ σ (.diagS A) A (fun a => .ok (diagSB (K := K) a))
    (fun (X : Int × Int) => some (Typed.diagSize X.1 X.2)) rfl rfl id ?_ ?_ ha
  · rintro y ⟨⟩; exact ⟨_, ‹_›⟩
  · intro a' x1 _ r1 d1
    cases x1 with
    | @m r c X =>
      refine fin_ok _ (.v (fun i : Fin (min r c) => X ⟨i, lt_of_lt_of_le i.2 (Nat.min_le_left _ _)⟩
        ⟨i, lt_of_lt_of_le i.2 (Nat.min_le_right _ _)⟩)) rfl rfl (diagSB_ok r1)
        (.diagS ((d1 _).2 rfl)) fun z hz => ?_
      cases hz with
      | diagS p => cases (d1 _).1 p; rfl

theorem good_sliceM {A : Ex K .m} {rs cs rl cl : Int} (ha : Good ρ σ A) :
    Good ρ σ (.sliceM A rs cs rl cl) := by
  refine good_un ρ σ (.sliceM A rs cs rl cl) A (fun a => sliceMB (K := K) a rs cs rl cl)
    (fun _ => some (Checks.Dynamic, Checks.Dynamic)) rfl rfl id ?_ ?_ ha
  · rintro y ⟨⟩; exact ⟨_, ‹_›⟩
  · intro a' x1 _ r1 d1
    cases x1 with
    | @m r c X =>
      by_cases h : (0 ≤ rs ∧ 0 ≤ rl ∧ rs + rl ≤ r) ∧ 0 ≤ cs ∧ 0 ≤ cl ∧ cs + cl ≤ c
      · obtain ⟨r0, rfl⟩ := Int.eq_ofNat_of_zero_le h.1.1
        obtain ⟨r1', rfl⟩ := Int.eq_ofNat_of_zero_le h.1.2.1
        obtain ⟨c0, rfl⟩ := Int.eq_ofNat_of_zero_le h.2.1
        obtain ⟨c1', rfl⟩ := Int.eq_ofNat_of_zero_le h.2.2.1
        have hr : r0 + r1' ≤ r := by omega
        have hc : c0 + c1' ≤ c := by omega
        obtain ⟨b, h1, h2, h2', h3⟩ := sliceMB_ok r1 hr hc
        refine fin_ok b (.m (fun (i : Fin r1') (j : Fin c1') =>
          X ⟨r0 + i, Nat.lt_of_lt_of_le (Nat.add_lt_add_left i.2 r0) hr⟩
            ⟨c0 + j, Nat.lt_of_lt_of_le (Nat.add_lt_add_left j.2 c0) hc⟩)) h1 (ty_m h2 h2') h3
          (.sliceM ((d1 _).2 rfl) rfl rfl rfl rfl hr hc) fun z hz => ?_
        cases hz with
        | sliceM p q1 q2 q3 q4 =>
          cases (d1 _).1 p; obtain rfl := Int.ofNat.inj q1; obtain rfl := Int.ofNat.inj q2
          obtain rfl := Int.ofNat.inj q3; obtain rfl := Int.ofNat.inj q4; rfl
      · exact fin_no (sliceMB_ne r1 h) fun z hz => by
          cases hz with
          | sliceM p q1 q2 q3 q4 => cases (d1 _).1 p; exact h (by omega)

theorem good_lit {x : K} : Good ρ σ (.lit x) := by
  refine ⟨rfl, .s x, rfl, fun y => ⟨?_, ?_⟩⟩
  · rintro ⟨⟩; rfl
  · rintro rfl; exact .lit x

theorem good_varV (h : EnvRep ρ σ) {i : Nat} : Good ρ σ (.varV i) := by
  rcases h.v i with ⟨h1, h2⟩ | ⟨b, S, n, x, h1, h2, h3, h4⟩
  · unfold Good comp CEnv.types
    dsimp only
    rw [h1]
    left
    rintro y ⟨⟩
    simp_all
  · unfold Good comp CEnv.types run
    dsimp only
    rw [h1]
    refine ⟨rfl, .v x, h4, fun y => ⟨?_, ?_⟩⟩
    · intro hd
      cases hd with | varV p => rw [h2] at p; cases p; rfl
    · rintro rfl; exact .varV h2

theorem good_varM (h : EnvRep ρ σ) {i : Nat} : Good ρ σ (.varM i) := by
  rcases h.m i with ⟨h1, h2⟩ | ⟨b, S, S', r, c, X, h1, h2, h3, h3', h4⟩
  · unfold Good comp CEnv.types
    dsimp only
    rw [h1]
    left
    rintro y ⟨⟩
    simp_all
  · unfold Good comp CEnv.types run
    dsimp only
    rw [h1]
    refine ⟨rfl, .m X, h4, fun y => ⟨?_, ?_⟩⟩
    · intro hd
      cases hd with | varM p => rw [h2] at p; cases p; rfl
    · rintro rfl; exact .varM h2

/-- every expression behaves as it should -/
theorem good (h : EnvRep ρ σ) : ∀ {k : Knd} (e : Ex K k), Good ρ σ e
  | _, .lit _ => good_lit
  | _, .dot a b => good_dot (good h a) (good h b)
  | _, .idx a _ => good_idx (good h a)
  | _, .el a _ _ => good_el (good h a)
  | _, .row a _ => good_row (good h a)
  | _, .diagS a => good_diagS (good h a)
  | _, .sliceM a _ _ _ _ => good_sliceM (good h a)
  | _, .varV _ => good_varV h
  | _, .onesV _ _ s => good_onesV (good h s)
  | _, .convV _ a => good_convV (good h a)
  | _, .binV _ a b => good_binV (good h a) (good h b)
  | _, .negV a => good_negV (good h a)
  | _, .scaV _ a s => good_scaV (good h a) (good h s)
  | _, .onesOpV _ a s => good_onesOpV (good h a) (good h s)
  | _, .cross a b => good_cross (good h a) (good h b)
  | _, .mulMV a b => good_mulMV (good h a) (good h b)
  | _, .mulVM a b => good_mulVM (good h a) (good h b)
  | _, .diagMulV a b => good_diagMulV (good h a) (good h b)
  | _, .sliceV a _ _ => good_sliceV (good h a)
  | _, .varM _ => good_varM h
  | _, .onesM _ _ _ _ s => good_onesM (good h s)
  | _, .identM _ _ _ s => good_identM (good h s)
  | _, .convM _ _ a => good_convM (good h a)
  | _, .binM _ a b => good_binM (good h a) (good h b)
  | _, .negM a => good_negM (good h a)
  | _, .scaM _ a s => good_scaM (good h a) (good h s)
  | _, .onesOpM _ a s => good_onesOpM (good h a) (good h s)
  | _, .identOpM _ a s => good_identOpM (good h a) (good h s)
  | _, .mulMM a b => good_mulMM (good h a) (good h b)
  | _, .mulMD a b => good_mulMD (good h a) (good h b)
  | _, .mulDM a b => good_mulDM (good h a) (good h b)
  | _, .transp a => good_transp (good h a)
  | _, .asCol a => good_asCol (good h a)
  | _, .asRow a => good_asRow (good h a)

/-! ## The property -/

theorem Good.exec {k : Knd} {e : Ex K k} (h : Good ρ σ e) :
    match exec ρ e with
    | .compileError => (∀ x, ¬ Den σ e x) ∨ Quirk ρ.types σ e
    | .ok b => comp ρ.types e = some (ty b) ∧ ∃ x, Rep b x ∧ ∀ y, Den σ e y ↔ y = x
    | .abort => ∀ x, ¬ Den σ e x
    | .ub => Quirk ρ.types σ e := by
  unfold Good at h
  unfold Expr.exec
  cases hc : comp ρ.types e with
  | none => rw [hc] at h; exact h
  | some t =>
    rw [hc] at h
    dsimp only at h ⊢
    cases hr : run ρ e with
    | ok b => rw [hr] at h; exact ⟨by rw [h.1], h.2⟩
    | abort => rw [hr] at h; exact h
    | ub => rw [hr] at h; exact h

/-- **C65** (soundness) If an expression, of any nesting and over operands of any mixture of static,
dynamic and resizable sizes, compiles and runs to the end, then it makes sense mathematically and the
object it yields holds its mathematical value, in the right number of initialised cells. -/
theorem c65_sound (h : EnvRep ρ σ) {k : Knd} (e : Ex K k) {b : CVal K k} (he : exec ρ e = .ok b) :
    ∃ x, Den σ e x ∧ Rep b x := by
  have := (good h e).exec
  rw [he] at this
  obtain ⟨_, x, h1, h2⟩ := this
  exact ⟨x, (h2 x).2 rfl, h1⟩

/-- **C65** (completeness) If an expression makes sense mathematically and meets none of the library's
restrictions, it compiles, runs to the end and yields its value. -/
theorem c65_complete (h : EnvRep ρ σ) {k : Knd} (e : Ex K k) {x : Val K k}
    (hq : ¬ Quirk ρ.types σ e) (hd : Den σ e x) : ∃ b, exec ρ e = .ok b ∧ Rep b x := by
  have := (good h e).exec
  cases he : exec ρ e with
  | compileError => rw [he] at this; exact (this.elim (fun h => h x hd) hq).elim
  | abort => rw [he] at this; exact (this x hd).elim
  | ub => rw [he] at this; exact (hq this).elim
  | ok b =>
    rw [he] at this
    obtain ⟨_, y, h1, h2⟩ := this
    rw [(h2 x).1 hd]
    exact ⟨b, rfl, h1⟩

/-- **C65** (safety) Whatever the sizes, evaluating an expression never reads or writes outside an
object, and never reads an element that was not written before — unless one of the restrictions is
met. -/
theorem c65_safe (h : EnvRep ρ σ) {k : Knd} (e : Ex K k) (hq : ¬ Quirk ρ.types σ e) :
    exec ρ e ≠ .ub := by
  intro he
  have := (good h e).exec
  rw [he] at this
  exact hq this

/-- **C65** (rejection) An expression that makes no sense mathematically is either rejected by the
compiler or aborts: it never yields a value. -/
theorem c65_reject (h : EnvRep ρ σ) {k : Knd} (e : Ex K k) (hq : ¬ Quirk ρ.types σ e) :
    (∀ x, ¬ Den σ e x) ↔ exec ρ e = .compileError ∨ exec ρ e = .abort := by
  have := (good h e).exec
  cases he : exec ρ e with
  | compileError =>
    rw [he] at this; simp only [true_or, iff_true]; exact this.resolve_right hq
  | abort => rw [he] at this; simp only [or_true, iff_true]; exact this
  | ub => rw [he] at this; exact (hq this).elim
  | ok b =>
    rw [he] at this
    obtain ⟨_, x, h1, h2⟩ := this
    simp only [reduceCtorEq, or_self, iff_false, not_forall, not_not]
    exact ⟨x, (h2 x).2 rfl⟩

/-- **C65** Whether an expression compiles, and with which template sizes its value comes, depends only
on the declared sizes of the variables. -/
theorem c65_static (h : EnvRep ρ σ) {ρ' : CEnv K} {σ' : SEnv K} (h' : EnvRep ρ' σ')
    (ht : ρ.types = ρ'.types) {k : Knd} (e : Ex K k) :
    (exec ρ e = .compileError ↔ exec ρ' e = .compileError) ∧
    ∀ b b', exec ρ e = .ok b → exec ρ' e = .ok b' → ty b = ty b' := by
  refine ⟨?_, fun b b' hb hb' => ?_⟩
  · unfold exec
    rw [ht]
    cases comp ρ'.types e with
    | none => simp
    | some t => cases run ρ e <;> cases run ρ' e <;> simp
  · have h1 := (good h e).exec
    have h2 := (good h' e).exec
    rw [hb] at h1
    rw [hb'] at h2
    have := h1.1.symm.trans ((by rw [ht] : comp ρ.types e = comp ρ'.types e).trans h2.1)
    exact Option.some.inj this

/-- **C65** The value is unique: nothing else could have been meant. -/
theorem c65_functional (σ : SEnv K) {k : Knd} {e : Ex K k} {x y : Val K k} (hx : Den σ e x)
    (hy : Den σ e y) : x = y := by
  induction hx with
  | lit => cases hy; rfl
  | varV p => cases hy with | varV q => rw [p] at q; cases q; rfl
  | varM p => cases hy with | varM q => rw [p] at q; cases q; rfl
  | onesV _ _ ih => cases hy with | onesV _ q => cases ih q; rfl
  | convV _ _ ih => cases hy with | convV q _ => cases ih q; rfl
  | negV _ ih => cases hy with | negV q => cases ih q; rfl
  | dot _ _ ih1 ih2 => cases hy with | dot q1 q2 => cases ih1 q1; cases ih2 q2; rfl
  | binV _ _ ih1 ih2 => cases hy with | binV q1 q2 => cases ih1 q1; cases ih2 q2; rfl
  | scaV _ _ ih1 ih2 => cases hy with | scaV q1 q2 => cases ih1 q1; cases ih2 q2; rfl
  | onesOpV _ _ ih1 ih2 => cases hy with | onesOpV q1 q2 => cases ih1 q1; cases ih2 q2; rfl
  | cross _ _ ih1 ih2 => cases hy with | cross q1 q2 => cases ih1 q1; cases ih2 q2; rfl
  | mulMV _ _ ih1 ih2 => cases hy with | mulMV q1 q2 => cases ih1 q1; cases ih2 q2; rfl
  | mulVM _ _ ih1 ih2 => cases hy with | mulVM q1 q2 => cases ih1 q1; cases ih2 q2; rfl
  | diagMulV _ _ ih1 ih2 => cases hy with | diagMulV q1 q2 => cases ih1 q1; cases ih2 q2; rfl
  | binM _ _ ih1 ih2 => cases hy with | binM q1 q2 => cases ih1 q1; cases ih2 q2; rfl
  | scaM _ _ ih1 ih2 => cases hy with | scaM q1 q2 => cases ih1 q1; cases ih2 q2; rfl
  | onesOpM _ _ ih1 ih2 => cases hy with | onesOpM q1 q2 => cases ih1 q1; cases ih2 q2; rfl
  | identOpM _ _ ih1 ih2 => cases hy with | identOpM q1 q2 => cases ih1 q1; cases ih2 q2; rfl
  | mulMM _ _ ih1 ih2 => cases hy with | mulMM q1 q2 => cases ih1 q1; cases ih2 q2; rfl
  | mulMD _ _ ih1 ih2 => cases hy with | mulMD q1 q2 => cases ih1 q1; cases ih2 q2; rfl
  | mulDM _ _ ih1 ih2 => cases hy with | mulDM q1 q2 => cases ih1 q1; cases ih2 q2; rfl
  | negM _ ih => cases hy with | negM q => cases ih q; rfl
  | transp _ ih => cases hy with | transp q => cases ih q; rfl
  | asCol _ ih => cases hy with | asCol q => cases ih q; rfl
  | asRow _ ih => cases hy with | asRow q => cases ih q; rfl
  | diagS _ ih => cases hy with | diagS q => cases ih q; rfl
  | convM _ _ _ ih => cases hy with | convM q _ _ => cases ih q; rfl
  | onesM _ _ _ ih => cases hy with | onesM _ _ q => cases ih q; rfl
  | identM _ _ e1 _ _ ih =>
    cases hy with | identM _ _ e2 _ q => cases ih q; subst e1 e2; rfl
  | idx _ e1 _ ih =>
    cases hy with
    | idx q e2 _ => cases ih q; obtain rfl := Int.ofNat.inj (e1.symm.trans e2); rfl
  | row _ e1 _ ih =>
    cases hy with
    | row q e2 _ => cases ih q; obtain rfl := Int.ofNat.inj (e1.symm.trans e2); rfl
  | el _ e1 f1 _ _ ih =>
    cases hy with
    | el q e2 f2 _ _ =>
      cases ih q; obtain rfl := Int.ofNat.inj (e1.symm.trans e2)
      obtain rfl := Int.ofNat.inj (f1.symm.trans f2); rfl
  | sliceV _ e1 f1 _ ih =>
    cases hy with
    | sliceV q e2 f2 _ =>
      cases ih q; obtain rfl := Int.ofNat.inj (e1.symm.trans e2)
      obtain rfl := Int.ofNat.inj (f1.symm.trans f2); rfl
  | sliceM _ e1 f1 g1 h1 _ _ ih =>
    cases hy with
    | sliceM q e2 f2 g2 h2 _ _ =>
      cases ih q; obtain rfl := Int.ofNat.inj (e1.symm.trans e2)
      obtain rfl := Int.ofNat.inj (f1.symm.trans f2); obtain rfl := Int.ofNat.inj (g1.symm.trans g2)
      obtain rfl := Int.ofNat.inj (h1.symm.trans h2); rfl

/-! ## The hypotheses can be met, and the restrictions are real -/

/-- an object holding a given vector -/
def mkV (S : Sz) {n : Nat} (x : Fin n → K) : VB K :=
  ⟨S.toInt, n, fun i => if h : i < n then some (x ⟨i, h⟩) else none⟩
/-- an object holding a given matrix -/
def mkM (R C : Sz) {r c : Nat} (X : Matrix (Fin r) (Fin c) K) : MB K :=
  ⟨R.toInt, C.toInt, r, c, fun i j => if h : i < r ∧ j < c then some (X ⟨i, h.1⟩ ⟨j, h.2⟩) else none⟩

theorem mkV_rep {S : Sz} {n : Nat} (h : S.Accepts n) (x : Fin n → K) : RepV (mkV S x) x :=
  ⟨(accepts_agrees.2 h).2, rfl, fun i => by simp [mkV]⟩
theorem mkM_rep {R C : Sz} {r c : Nat} (h : R.AcceptsM r) (h' : C.AcceptsM c)
    (X : Matrix (Fin r) (Fin c) K) : RepM (mkM R C X) X :=
  ⟨(acceptsM_agrees.2 h).2, (acceptsM_agrees.2 h').2, rfl, rfl, fun i j => by simp [mkM]⟩

/-- **C65** Every assignment of values to variables whose declared sizes can hold them is represented by
some program state. -/
theorem c65_env_exists (σ : SEnv K)
    (hv : ∀ i S n (x : Fin n → K), σ.v i = some (S, .v x) → S.Accepts n)
    (hm : ∀ i R C r c (X : Matrix (Fin r) (Fin c) K), σ.m i = some ((R, C), .m X) →
      R.AcceptsM r ∧ C.AcceptsM c) : ∃ ρ, EnvRep ρ σ := by
  refine ⟨⟨fun i => match σ.v i with
      | some (S, .v x) => some (mkV S x)
      | none => none,
    fun i => match σ.m i with
      | some ((R, C), .m X) => some (mkM R C X)
      | none => none⟩, fun i => ?_, fun i => ?_⟩
  · dsimp only
    rcases h : σ.v i with _ | ⟨S, y⟩
    · exact Or.inl ⟨rfl, rfl⟩
    · cases y with
      | @v n x => exact Or.inr ⟨_, S, n, x, rfl, rfl, rfl, mkV_rep (hv i S n x h) x⟩
  · dsimp only
    rcases h : σ.m i with _ | ⟨⟨R, C⟩, y⟩
    · exact Or.inl ⟨rfl, rfl⟩
    · cases y with
      | @m r c X =>
        obtain ⟨h1, h2⟩ := hm i R C r c X h
        exact Or.inr ⟨_, R, C, r, c, X, rfl, rfl, rfl, rfl, mkM_rep h1 h2 X⟩

/-- `v0` is a `Vector<>` and `v1` a `Vector<3>` of three elements, `m0` a 2×3 `Matrix<Dynamic,3>`,
`v2` a `Vector<Resizable>` of two elements. -/
def exEnv : SEnv ℚ where
  v := fun i => match i with
    | 0 => some (.dyn, .v ![(1:ℚ), 2, 3])
    | 1 => some (.st 3, .v ![(4:ℚ), 5, 6])
    | 2 => some (.rsz, .v ![(7:ℚ), 8])
    | _ => none
  m := fun i => match i with
    | 0 => some ((.dyn, .st 3), .m !![(1:ℚ), 0, 2; 0, 1, 1])
    | _ => none

def exRho : CEnv ℚ where
  v := fun i => match i with
    | 0 => some (mkV .dyn ![(1:ℚ), 2, 3])
    | 1 => some (mkV (.st 3) ![(4:ℚ), 5, 6])
    | 2 => some (mkV .rsz ![(7:ℚ), 8])
    | _ => none
  m := fun i => match i with
    | 0 => some (mkM .dyn (.st 3) !![(1:ℚ), 0, 2; 0, 1, 1])
    | _ => none

theorem exRep : EnvRep exRho exEnv where
  v := fun i => match i with
    | 0 => Or.inr ⟨_, .dyn, 3, _, rfl, rfl, rfl, mkV_rep (S := .dyn) (n := 3) trivial _⟩
    | 1 => Or.inr ⟨_, .st 3, 3, _, rfl, rfl, rfl, mkV_rep (S := .st 3) (n := 3) ⟨by norm_num, rfl⟩ _⟩
    | 2 => Or.inr ⟨_, .rsz, 2, _, rfl, rfl, rfl, mkV_rep (S := .rsz) (n := 2) (by simp [Sz.Accepts]) _⟩
    | _+3 => Or.inl ⟨rfl, rfl⟩
  m := fun i => match i with
    | 0 => Or.inr ⟨_, .dyn, .st 3, 2, 3, _, rfl, rfl, rfl, rfl, mkM_rep (R := .dyn) (C := .st 3) (r := 2) (c := 3) trivial ⟨by norm_num, rfl⟩ _⟩
    | _+1 => Or.inl ⟨rfl, rfl⟩

/-- `m0 * (v0 + v1) - v2 / (v0 * v1)` compiles, runs and yields `m0 *ᵥ (v0 + v1) - v2 / 32`. -/
example : ∃ b, exec exRho (.binV .sub (.mulMV (.varM 0) (.binV .add (.varV 0) (.varV 1)))
      (.scaV .div (.varV 2) (.dot (.varV 0) (.varV 1)))) = .ok b ∧
    Rep b (.v (!![(1:ℚ), 0, 2; 0, 1, 1] *ᵥ (![1, 2, 3] + ![4, 5, 6]) -
      fun i => ![(7:ℚ), 8] i / (![1, 2, 3] ⬝ᵥ ![4, 5, 6]))) := by
  refine c65_complete exRep _ ?_ ?_
  · simp [Quirk]
  · exact .binV (o := .sub) (.mulMV (.varM rfl) (.binV (o := .add) (.varV rfl) (.varV rfl)))
      (.scaV (o := .div) (.varV rfl) (.dot (.varV rfl) (.varV rfl)))

/-- `m0 * v2` does not make sense: it is rejected at run time (the size of `v2` is not in its type). -/
example : exec exRho (.mulMV (.varM 0) (.varV 2)) = .abort := by
  have h : ∀ x, ¬ Den exEnv (.mulMV (.varM 0) (.varV 2)) x := by
    intro x hx
    cases hx with
    | mulMV p q =>
      cases p with
      | varM p => cases p; cases q with | varV q => cases q
  have h2 : exec exRho (.mulMV (.varM 0) (.varV 2)) ≠ .compileError := by
    unfold exec
    have : comp exRho.types (.mulMV (.varM 0) (.varV 2) : Ex ℚ .v) = some Checks.Dynamic := by
      decide
    rw [this]
    cases run exRho (.mulMV (.varM 0) (.varV 2) : Ex ℚ .v) <;> simp
  exact ((c65_reject exRep _ (by simp [Quirk])).1 h).resolve_left h2

/-- `Matrix<2,2>(Ones) * v1`: rejected by the compiler. -/
example : exec exRho (.mulMV (.onesM (.st 2) (.st 2) 0 0 (.lit 1)) (.varV 1)) =
    .compileError := by
  unfold exec
  have : comp exRho.types (.mulMV (.onesM (.st 2) (.st 2) 0 0 (.lit 1))
    (.varV 1) : Ex ℚ .v) = none := by decide
  rw [this]

/-- The restriction on `^` is real: `v0 ^ v1` makes sense (both have three elements) but does not
compile, because `v0` is a `Vector<>`. -/
theorem c65_cross_dynamic_wrong :
    (∃ x, Den exEnv (.cross (.varV 0) (.varV 1)) x) ∧
      exec exRho (.cross (.varV 0) (.varV 1)) = .compileError := by
  refine ⟨⟨_, .cross (.varV rfl) (.varV rfl)⟩, ?_⟩
  unfold exec
  have : comp exRho.types (.cross (.varV 0) (.varV 1) : Ex ℚ .v) = none := by decide
  rw [this]

/-- The restriction on `as_col()` is real. -/
theorem c65_as_col_resizable_wrong :
    (∃ x, Den exEnv (.asCol (.varV 2)) x) ∧ exec exRho (.asCol (.varV 2)) = .ub :=
  ⟨⟨_, .asCol (.varV rfl)⟩, rfl⟩

/-- The restriction on indices is real: `v0[3]` compiles and is not caught. -/
theorem c65_index_unchecked_wrong :
    (∀ x, ¬ Den exEnv (.idx (.varV 0) 3) x) ∧ exec exRho (.idx (.varV 0) 3) = .ub := by
  refine ⟨fun x hx => ?_, rfl⟩
  cases hx with
  | idx p q h => cases p with | varV p => cases p; omega

end TooN.Expr
