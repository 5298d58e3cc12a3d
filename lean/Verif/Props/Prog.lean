import Verif.Proof.ProgAsg
/-!
# C66: straight-line programs

Sequences of declarations and assignments to variables and to views of them.
-/
set_option linter.unusedSectionVars false
set_option linter.unusedSimpArgs false
namespace TooN.Expr
open Matrix

variable {K : Type} [Field K]

/-- the declared sizes -/
def SEnv.types (σ : SEnv K) : TEnv :=
  ⟨fun i => (σ.v i).map fun p => p.1.toInt, fun i => (σ.m i).map fun p => (p.1.1.toInt, p.1.2.toInt)⟩

/-- An assignment runs into one of the library's restrictions: its right-hand side does (`Quirk`, see
C65), or the source is a view of the destination's own variable and would be overwritten before it is
read, or a `Vector<Resizable>` is assigned an empty vector or a slice of itself. -/
def BadR (σ : SEnv K) : {k : Knd} → Ex K k → Rhs K k → Prop
  | _, _, .eqS e => Quirk σ.types σ e
  | _, _, .updS _ e => Quirk σ.types σ e
  | _, L, .eqV e => Quirk σ.types σ e ∨ (¬ Resizes σ L (.eqV e) ∧ Hazard σ L e) ∨
      (Resizes σ L (.eqV e) ∧ ((∃ x : Fin 0 → K, Den σ e (.v x)) ∨
        ∃ i f, L = .varV i ∧ Loc σ e (.v i) f ∧ e ≠ .varV i))
  | _, L, .updV _ e => Quirk σ.types σ e ∨ Hazard σ L e
  | _, _, .scaV _ s => Quirk σ.types σ s
  | _, _, .onesV s => Quirk σ.types σ s
  | _, _, .onesUpdV _ s => Quirk σ.types σ s
  | _, L, .eqM e => Quirk σ.types σ e ∨ Hazard σ L e
  | _, L, .updM _ e => Quirk σ.types σ e ∨ Hazard σ L e
  | _, _, .scaM _ s => Quirk σ.types σ s
  | _, _, .onesM s => Quirk σ.types σ s
  | _, _, .onesUpdM _ s => Quirk σ.types σ s
  | _, _, .identM s => Quirk σ.types σ s
  | _, _, .identUpdM s => Quirk σ.types σ s

/-- A statement runs into one of the library's restrictions. -/
def Bad (σ : SEnv K) : Stmt K → Prop
  | .declV _ S e => Quirk σ.types σ (.convV S e)
  | .declM _ R C e => Quirk σ.types σ (.convM R C e)
  | .asg L r => Quirk σ.types σ L ∨ BadR σ L r

/-- No statement of the program does. -/
def Avoids : SEnv K → List (Stmt K) → Prop
  | _, [] => True
  | σ, s :: p => ¬ Bad σ s ∧ ∀ σ', Step σ s σ' → Avoids σ' p

variable {ρ : CEnv K} {σ : SEnv K}

theorem types_eq (h : EnvRep ρ σ) : ρ.types = σ.types := by
  unfold CEnv.types SEnv.types
  congr 1
  · funext i
    rcases h.v i with ⟨h1, h2⟩ | ⟨b, S, n, x, h1, h2, h3, h4⟩
    · rw [h1, h2]; rfl
    · rw [h1, h2]; simp [h3]
  · funext i
    rcases h.m i with ⟨h1, h2⟩ | ⟨b, S, S', n, c, x, h1, h2, h3, h3', h4⟩
    · rw [h1, h2]; rfl
    · rw [h1, h2]; simp [h3, h3']

/-- the possible fates of an operand -/
theorem operand (h : EnvRep ρ σ) {k : Knd} (e : Ex K k) (hq : ¬ Quirk σ.types σ e) :
    (comp ρ.types e = none ∧ ∀ x, ¬ Den σ e x) ∨
    (∃ t, comp ρ.types e = some t ∧ run ρ e = .abort ∧ ∀ x, ¬ Den σ e x) ∨
    (∃ b x, comp ρ.types e = some (ty b) ∧ run ρ e = .ok b ∧ Rep b x ∧ ∀ y, Den σ e y ↔ y = x) := by
  rw [← types_eq h] at hq
  have := good h e
  unfold Good at this
  cases hc : comp ρ.types e with
  | none => rw [hc] at this; exact Or.inl ⟨rfl, this.resolve_right hq⟩
  | some t =>
    rw [hc] at this
    right
    dsimp only at this
    cases hr : run ρ e with
    | ok b =>
      rw [hr] at this
      obtain ⟨h1, x, h2, h3⟩ := this
      exact Or.inr ⟨b, x, by rw [h1], rfl, h2, h3⟩
    | abort => rw [hr] at this; exact Or.inl ⟨t, rfl, rfl, this⟩
    | ub => rw [hr] at this; exact absurd this hq

/-- the outcome of an assignment to a view -/
def GoodA (ρ : CEnv K) (σ : SEnv K) {k : Knd} (L : Ex K k) (rhs : Rhs K k) (b : CVal K k)
    (l : CLoc k) : Prop :=
  (compR ρ.types (ty b) rhs = true → GoodOut σ ρ.types (.asg L rhs) (asgAt ρ l rhs)) ∧
  (compR ρ.types (ty b) rhs = false → ∀ σ', ¬ Step σ (.asg L rhs) σ')

theorem goodS_asg (h : EnvRep ρ σ) {k : Knd} (L : Ex K k) (rhs : Rhs K k)
    (hq : ¬ Quirk σ.types σ L)
    (main : ∀ b l x, run ρ L = .ok b → locate ρ L = .ok l → LRep ρ σ L l b → Rep b x →
      (∀ y, Den σ L y ↔ y = x) → GoodA ρ σ L rhs b l) : GoodS ρ σ (.asg L rhs) := by
  unfold GoodS compS execS
  dsimp only
  rcases operand h L hq with ⟨h1, h2⟩ | ⟨t, h1, h2, h3⟩ | ⟨b, x, h1, h2, h3, h4⟩
  · rw [h1]
    intro σ' hs
    obtain ⟨_, x, hx⟩ := step_view hs
    exact h2 x hx
  · have hno : ∀ σ', ¬ Step σ (.asg L rhs) σ' := fun σ' hs => by
      obtain ⟨_, x, hx⟩ := step_view hs
      exact h3 x hx
    rw [h1]
    dsimp only
    by_cases hv : isView L = true
    · have := lgood h L hv
      unfold LGood at this
      rw [h2] at this
      rw [show locate ρ L = .abort from this]
      split
      · rename_i hh
        split at hh
        · cases hh
        · exact hno
      · exact hno
    · rw [if_neg (by simp [hv])]
      exact hno
  · rw [h1]
    dsimp only
    by_cases hv : isView L = true
    · have := lgood h L hv
      unfold LGood at this
      rw [h2] at this
      obtain ⟨l, k1, k2⟩ := this
      obtain ⟨m1, m2⟩ := main b l x h2 k1 k2 h3 h4
      rw [k1]
      cases hc : compR ρ.types (ty b) rhs with
      | true => rw [if_pos (by simp [hv])]; exact m1 hc
      | false => rw [if_neg (by simp)]; exact m2 hc
    · rw [if_neg (by simp [hv])]
      intro σ' hs
      exact hv (step_view hs).1

theorem noResS {L : Ex K .s} {rhs : Rhs K .s} : ¬ Resizes σ L rhs := by
  cases rhs <;> cases L <;> exact id
theorem noResM {L : Ex K .m} {rhs : Rhs K .m} : ¬ Resizes σ L rhs := by
  cases rhs <;> cases L <;> exact id

/-! ## Single elements -/

theorem goodA_eqS (h : EnvRep ρ σ) {L : Ex K .s} {e : Ex K .s} (hq : ¬ BadR σ L (.eqS e))
    {b : CVal K .s} {l : CLoc .s} (hl : LRep ρ σ L l b) : GoodA ρ σ L (.eqS e) b l := by
  have hno : (∀ x, ¬ Den σ e x) → ∀ σ', ¬ Step σ (.asg L (.eqS e)) σ' := fun hd σ' hs => by
    obtain ⟨_, y, _, h2, _⟩ := step_shape noResS hs
    cases h2 with | eqS p => exact hd _ p
  unfold GoodA compR asgAt asgS
  dsimp only
  rcases operand h e hq with ⟨h1, h2⟩ | ⟨t, h1, h2, h3⟩ | ⟨be, y, h1, h2, h3, h4⟩
  · rw [h1]; exact ⟨fun hh => by simp at hh, fun _ => hno h2⟩
  · rw [h1, h2]; exact ⟨fun _ => hno h3, fun hh => by simp at hh⟩
  · rw [h1, h2]
    refine ⟨fun _ => ?_, fun hh => by simp at hh⟩
    cases y with
    | s y =>
      obtain rfl : be = y := h3
      exact finS h noResS hl be (.eqS ((h4 _).2 rfl))

theorem goodA_updS (h : EnvRep ρ σ) {L : Ex K .s} {o : BinM} {e : Ex K .s}
    (hq : ¬ BadR σ L (.updS o e)) {b : CVal K .s} {l : CLoc .s} {x : Val K .s}
    (hl : LRep ρ σ L l b) (hb : Rep b x) (hd : ∀ y, Den σ L y ↔ y = x) :
    GoodA ρ σ L (.updS o e) b l := by
  have hno : (∀ x, ¬ Den σ e x) → ∀ σ', ¬ Step σ (.asg L (.updS o e)) σ' := fun hd σ' hs => by
    obtain ⟨_, y, _, h2, _⟩ := step_shape noResS hs
    cases h2 with | updS _ p => exact hd _ p
  unfold GoodA compR asgAt asgS
  dsimp only
  rcases operand h e hq with ⟨h1, h2⟩ | ⟨t, h1, h2, h3⟩ | ⟨be, y, h1, h2, h3, h4⟩
  · rw [h1]; exact ⟨fun hh => by simp at hh, fun _ => hno h2⟩
  · rw [h1, h2]; exact ⟨fun _ => hno h3, fun hh => by simp at hh⟩
  · rw [h1, h2]
    refine ⟨fun _ => ?_, fun hh => by simp at hh⟩
    cases y with
    | s y =>
      obtain rfl : be = y := h3
      cases x with
      | s x =>
        obtain rfl : b = x := hb
        have hr := hl.2.2
        dsimp only [Outcome.bind_ok]
        rw [hr, Outcome.bind_ok]
        refine finS h noResS hl _ ?_
        have := RDen.updS (o := o) ((hd _).2 rfl) ((h4 _).2 rfl)
        cases o <;> exact this

/-! ## Vectors -/

theorem noResV {L : Ex K .v} {rhs : Rhs K .v} (h : ∀ e, rhs ≠ .eqV e) : ¬ Resizes σ L rhs := by
  cases rhs with
  | eqV e => exact absurd rfl (h e)
  | _ => cases L <;> exact id

theorem goodA_scalV (h : EnvRep ρ σ) {L : Ex K .v} {s : Ex K .s} {rhs : Rhs K .v}
    (hne : ∀ e, rhs ≠ .eqV e) (hq : ¬ Quirk σ.types σ s) {b : CVal K .v} {l : CLoc .v}
    {n : Nat} {x : Fin n → K} (hl : LRep ρ σ L l b) (hb : RepV b x)
    (val : K → CEnv K → Nat → Outcome K) (Y : K → Fin n → K)
    (hcomp : compR ρ.types (ty b) rhs = (comp ρ.types s).isSome)
    (hasg : asgV ρ l rhs = (run ρ s).bind fun (k : K) => loopV l (val k) ρ)
    (hden : ∀ y, RDen σ L rhs y → ∃ k, Den σ s k)
    (hY : ∀ k, Den σ s (.s k) → RDen σ L rhs (.v (Y k)))
    (hv : ∀ κ ρ' k, k < n → ρ'.read (VL.root l) (VL.cell l k) = .ok (extV 0 x k) →
      val κ ρ' k = .ok (extV 0 (Y κ) k)) :
    GoodA ρ σ L rhs b l := by
  have hno : (∀ x, ¬ Den σ s x) → ∀ σ', ¬ Step σ (.asg L rhs) σ' := fun hd σ' hs => by
    obtain ⟨_, y, _, h2, _⟩ := step_shape (noResV hne) hs
    obtain ⟨k, hk⟩ := hden y h2
    exact hd _ hk
  unfold GoodA asgAt
  dsimp only
  rw [hcomp, hasg]
  rcases operand h s hq with ⟨h1, h2⟩ | ⟨t, h1, h2, h3⟩ | ⟨κ, y, h1, h2, h3, h4⟩
  · rw [h1]; exact ⟨fun hh => by simp at hh, fun _ => hno h2⟩
  · rw [h1, h2]; exact ⟨fun _ => hno h3, fun hh => by simp at hh⟩
  · rw [h1, h2]
    refine ⟨fun _ => ?_, fun hh => by simp at hh⟩
    cases y with
    | s y =>
      obtain rfl : κ = y := h3
      have hnn : n = VL.n l := by rw [hl.2.1, hb.2.1]
      subst hnn
      rw [Outcome.bind_ok]
      refine finV h (noResV hne) hl (Y κ) (hY κ ((h4 _).2 rfl)) (val κ) fun k hk => ?_
      exact hv κ _ k hk (readV hl hb _ k hk)

theorem extV_lt {n : Nat} {x : Fin n → K} {k : Nat} (hk : k < n) : extV 0 x k = x ⟨k, hk⟩ := by
  simp [extV, hk]
theorem extM_lt {r c : Nat} {X : Matrix (Fin r) (Fin c) K} {i j : Nat} (hi : i < r) (hj : j < c) :
    extM 0 X i j = X ⟨i, hi⟩ ⟨j, hj⟩ := by
  simp [extM, hi, hj]

theorem goodA_scaV (h : EnvRep ρ σ) {L : Ex K .v} {o : Md} {s : Ex K .s}
    (hq : ¬ BadR σ L (.scaV o s)) {b : CVal K .v} {l : CLoc .v} {x : Val K .v}
    (hl : LRep ρ σ L l b) (hb : Rep b x) (hd : ∀ y, Den σ L y ↔ y = x) :
    GoodA ρ σ L (.scaV o s) b l := by
  cases x with
  | v x =>
    refine goodA_scalV h (fun _ e => by cases e) hq hl hb
      (fun κ ρ k => (ρ.read (VL.root l) (VL.cell l k)).bind fun x => .ok (md1 o x κ))
      (fun κ i => sca o.sca (x i) κ) rfl rfl ?_ ?_ ?_
    · rintro y ⟨⟩
      rename_i p; cases p; exact ⟨_, ‹_›⟩
    · intro k hk
      exact .scaV (.scaV ((hd _).2 rfl) hk)
    · intro κ ρ' k hk hr
      rw [hr, Outcome.bind_ok, extV_lt hk, extV_lt hk]
      cases o <;> rfl

theorem goodA_onesV (h : EnvRep ρ σ) {L : Ex K .v} {s : Ex K .s}
    (hq : ¬ BadR σ L (.onesV s)) {b : CVal K .v} {l : CLoc .v} {x : Val K .v}
    (hl : LRep ρ σ L l b) (hb : Rep b x) (hd : ∀ y, Den σ L y ↔ y = x) :
    GoodA ρ σ L (.onesV s) b l := by
  cases x with
  | v x =>
    refine goodA_scalV h (fun _ e => by cases e) hq hl hb
      (fun κ ρ k => .ok κ) (fun κ _ => κ) rfl rfl ?_ ?_ ?_
    · rintro y ⟨⟩
      exact ⟨_, ‹_›⟩
    · intro k hk
      exact .onesV ((hd _).2 rfl) hk
    · intro κ ρ' k hk hr
      rw [extV_lt hk]

theorem goodA_onesUpdV (h : EnvRep ρ σ) {L : Ex K .v} {o : BinM} {s : Ex K .s}
    (hq : ¬ BadR σ L (.onesUpdV o s)) {b : CVal K .v} {l : CLoc .v} {x : Val K .v}
    (hl : LRep ρ σ L l b) (hb : Rep b x) (hd : ∀ y, Den σ L y ↔ y = x) :
    GoodA ρ σ L (.onesUpdV o s) b l := by
  cases x with
  | v x =>
    refine goodA_scalV h (fun _ e => by cases e) hq hl hb
      (fun κ ρ k => (ρ.read (VL.root l) (VL.cell l k)).bind fun x => .ok (upd1 o x κ))
      (fun κ => mode o.toMode x (fun _ => κ)) rfl rfl ?_ ?_ ?_
    · rintro y ⟨⟩
      rename_i p; cases p; exact ⟨_, ‹_›⟩
    · intro k hk
      exact .onesUpdV (.onesOpV ((hd _).2 rfl) hk)
    · intro κ ρ' k hk hr
      rw [hr, Outcome.bind_ok, extV_lt hk, extV_lt hk]
      cases o <;> rfl

theorem goodA_updV (h : EnvRep ρ σ) {L : Ex K .v} {o : BinM} {e : Ex K .v}
    (hq : ¬ BadR σ L (.updV o e)) {b : CVal K .v} {l : CLoc .v} {x : Val K .v}
    (hl : LRep ρ σ L l b) (hb : Rep b x) (hd : ∀ y, Den σ L y ↔ y = x) :
    GoodA ρ σ L (.updV o e) b l := by
  cases x with
  | @v n x =>
  have hno : (∀ x : Fin n → K, ¬ Den σ e (.v x)) → ∀ σ', ¬ Step σ (.asg L (.updV o e)) σ' :=
    fun hn σ' hs => by
      obtain ⟨_, y, _, h2, _⟩ := step_shape (noResV (fun _ e => by cases e)) hs
      cases h2 with
      | updV p => cases p with | binV p q => cases (hd _).1 p; exact hn _ q
  have hnn : n = VL.n l := by rw [hl.2.1, hb.2.1]
  unfold GoodA compR asgAt asgV
  dsimp only
  rcases operand h e (fun q => hq (Or.inl q)) with ⟨h1, h2⟩ | ⟨t, h1, h2, h3⟩ | ⟨be, y, h1, h2, h3, h4⟩
  · rw [h1]; exact ⟨fun hh => by simp at hh, fun _ => hno fun x => h2 _⟩
  · rw [h1, (srcV_no h).1 h2]; exact ⟨fun _ => hno fun x => h3 _, fun _ => hno fun x => h3 _⟩
  · cases y with
    | @v m y =>
      obtain ⟨s, s1, s2, s3, s4⟩ := srcV_ok h hl (fun q => hq (Or.inr q)) h2 h3
      have ht : test (VL.S l) s.S (VL.n l) s.n = if n = m then .ok () else .abort := by
        rw [s2, s3, hl.1, ← hnn, h3.2.1, test_eq hb.1 h3.1]
      rw [h1, s1]
      dsimp only [Outcome.bind_ok]
      rw [ht]
      by_cases hnm : n = m
      · subst hnm
        subst hnn
        rw [if_pos rfl, Outcome.bind_ok]
        refine ⟨fun _ => ?_, fun hh => ?_⟩
        · refine finV h (noResV (fun _ e => by cases e)) hl (binV o.toV x y)
            (.updV (.binV ((hd _).2 rfl) ((h4 _).2 rfl))) _ fun k hk => ?_
          rw [readV hl hb _ k hk, Outcome.bind_ok, s4 _ k hk hk, Outcome.bind_ok, extV_lt hk,
            extV_lt hk, extV_lt hk]
          cases o <;> rfl
        · rw [show testC (ty b) (ty be) = true from testC_of hb.1 h3.1] at hh; cases hh
      · have : ∀ σ', ¬ Step σ (.asg L (.updV o e)) σ' := hno fun z hz => by
          cases (h4 _).1 hz; exact hnm rfl
        rw [if_neg hnm]
        exact ⟨fun _ => this, fun _ => this⟩

theorem goodA_eqV (h : EnvRep ρ σ) {L : Ex K .v} {e : Ex K .v}
    (hq : ¬ BadR σ L (.eqV e)) (hnr : ¬ Resizes σ L (.eqV e)) {b : CVal K .v} {l : CLoc .v}
    {x : Val K .v} (hl : LRep ρ σ L l b) (hb : Rep b x) (hd : ∀ y, Den σ L y ↔ y = x)
    (hS : VL.S l ≠ Checks.Resizable) :
    GoodA ρ σ L (.eqV e) b l := by
  cases x with
  | @v n x =>
  have hno : (∀ x : Fin n → K, ¬ Den σ e (.v x)) → ∀ σ', ¬ Step σ (.asg L (.eqV e)) σ' :=
    fun hn σ' hs => by
      obtain ⟨_, y, h1, h2, h3⟩ := step_shape hnr hs
      cases (hd _).1 h1
      cases h3
      cases h2 with
      | eqV p => exact hn _ p
  have hnn : n = VL.n l := by rw [hl.2.1, hb.2.1]
  unfold GoodA compR asgAt asgV
  dsimp only
  rw [if_neg hS]
  rcases operand h e (fun q => hq (Or.inl q)) with ⟨h1, h2⟩ | ⟨t, h1, h2, h3⟩ | ⟨be, y, h1, h2, h3, h4⟩
  · rw [h1]; exact ⟨fun hh => by simp at hh, fun _ => hno fun x => h2 _⟩
  · rw [h1, (srcV_no h).1 h2]; exact ⟨fun _ => hno fun x => h3 _, fun _ => hno fun x => h3 _⟩
  · cases y with
    | @v m y =>
      obtain ⟨s, s1, s2, s3, s4⟩ := srcV_ok h hl (fun q => hq (Or.inr (Or.inl ⟨hnr, q⟩))) h2 h3
      have ht : test (VL.S l) s.S (VL.n l) s.n = if n = m then .ok () else .abort := by
        rw [s2, s3, hl.1, ← hnn, h3.2.1, test_eq hb.1 h3.1]
      rw [h1, s1]
      dsimp only [Outcome.bind_ok]
      rw [ht]
      by_cases hnm : n = m
      · subst hnm
        subst hnn
        rw [if_pos rfl, Outcome.bind_ok]
        refine ⟨fun _ => ?_, fun hh => ?_⟩
        · exact finV h hnr hl y (.eqV ((h4 _).2 rfl)) _ fun k hk => s4 _ k hk hk
        · rw [show testC (ty b) (ty be) = true from testC_of hb.1 h3.1] at hh; cases hh
      · have : ∀ σ', ¬ Step σ (.asg L (.eqV e)) σ' := hno fun z hz => by
          cases (h4 _).1 hz; exact hnm rfl
        rw [if_neg hnm]
        exact ⟨fun _ => this, fun _ => this⟩

/-- only a variable can be resizable -/
theorem view_resizable (h : EnvRep ρ σ) {L : Ex K .v} {l : CLoc .v} (hv : isView L = true)
    (hl : locate ρ L = .ok l) (hS : VL.S l = Checks.Resizable) : ∃ i, L = .varV i := by
  cases L with
  | varV i => exact ⟨i, rfl⟩
  | sliceV a s len =>
    exfalso
    unfold locate at hl
    cases ha : locate ρ a with
    | ok la =>
      rw [ha, Outcome.bind_ok] at hl
      split at hl
      · cases hl; dsimp only at hS; unfold Checks.Dynamic Checks.Resizable at hS; omega
      · cases hl
    | abort => rw [ha] at hl; cases hl
    | ub => rw [ha] at hl; cases hl
  | row A i =>
    exfalso
    have hg := lgood h A hv
    unfold LGood at hg
    unfold locate at hl
    cases ha : locate ρ A with
    | ok la =>
      rw [ha, Outcome.bind_ok] at hl
      rw [ha] at hg
      cases hr : run ρ A with
      | ok b =>
        rw [hr] at hg
        obtain ⟨l', h1, h2⟩ := hg
        cases h1
        split at hl
        · cases hl
          exact h2.2.2.1.ne (h2.1.2.1 ▸ hS)
        · cases hl
      | abort => rw [hr] at hg; cases hg
      | ub => rw [hr] at hg; cases hg
    | abort => rw [ha] at hl; cases hl
    | ub => rw [ha] at hl; cases hl
  | diagS A =>
    exfalso
    have hg := lgood h A hv
    unfold LGood at hg
    unfold locate at hl
    cases ha : locate ρ A with
    | ok la =>
      rw [ha, Outcome.bind_ok] at hl
      rw [ha] at hg
      cases hr : run ρ A with
      | ok b =>
        rw [hr] at hg
        obtain ⟨l', h1, h2⟩ := hg
        cases h1
        cases hl
        have k1 := h2.2.1
        have k2 := h2.2.2.1
        obtain ⟨k3, k4, _⟩ := h2.1
        dsimp only at hS
        rw [k3, k4] at hS
        unfold AgreesM Checks.Dynamic at k1 k2
        unfold Typed.diagSize Checks.Dynamic Checks.Resizable at hS
        split at hS
        · omega
        · split at hS <;> omega
      | abort => rw [hr] at hg; cases hg
      | ub => rw [hr] at hg; cases hg
    | abort => rw [ha] at hl; cases hl
    | ub => rw [ha] at hl; cases hl
  | _ => cases hv

theorem toInt_rsz {S : Sz} : S.toInt = Checks.Resizable ↔ S = .rsz := by
  cases S <;> simp [Sz.toInt, Checks.Resizable, Checks.Dynamic]

theorem setV_rep (h : EnvRep ρ σ) (i : Nat) {b : VB K} {S : Sz} {n : Nat} {x : Fin n → K}
    (hS : b.S = S.toInt) (hb : RepV b x) :
    EnvRep { ρ with v := fun j => if j = i then some b else ρ.v j } (σ.setV i S (.v x)) := by
  refine ⟨fun j => ?_, h.m⟩
  by_cases hj : j = i
  · right
    refine ⟨b, S, n, x, ?_, ?_, hS, hb⟩
    · simp [hj]
    · simp [SEnv.setV, hj]
  · simpa [SEnv.setV, hj] using h.v j

theorem setM_rep (h : EnvRep ρ σ) (i : Nat) {b : MB K} {R C : Sz} {r c : Nat}
    {X : Matrix (Fin r) (Fin c) K} (hR : b.R = R.toInt) (hC : b.C = C.toInt) (hb : RepM b X) :
    EnvRep { ρ with m := fun j => if j = i then some b else ρ.m j } (σ.setM i (R, C) (.m X)) := by
  refine ⟨h.v, fun j => ?_⟩
  by_cases hj : j = i
  · right
    refine ⟨b, R, C, r, c, X, ?_, ?_, hR, hC, hb⟩
    · simp [hj]
    · simp [SEnv.setM, hj]
  · simpa [SEnv.setM, hj] using h.m j

/-- assignment to a resizable vector -/
theorem assign_rsz {v w : VB K} {n : Nat} {y : Fin n → K} (hv : v.S = Checks.Resizable)
    (hw : RepV w y) (hn : n ≠ 0) : ∃ b, assignV v w = .ok b ∧ b.S = Checks.Resizable ∧ RepV b y := by
  obtain ⟨S, vn, cell⟩ := v
  dsimp only at hv
  subst hv
  have hw2 := hw.2.1
  have hA : Agrees Checks.Resizable n := Or.inr (Or.inl ⟨rfl, hn⟩)
  have key : ∀ cell', storeV n (fun i => w.get i) ⟨Checks.Resizable, n, cell'⟩ =
      .ok ⟨Checks.Resizable, n, fun i => if i < n then some (extV 0 y i) else cell' i⟩ := fun cell' =>
    storeV_ok n _ (extV 0 y) ⟨Checks.Resizable, n, cell'⟩ (fun i hi => hw.get 0 i hi) le_rfl
  unfold assignV tryResize
  dsimp only
  rw [if_pos rfl, hw2, if_neg hn, Outcome.bind_ok]
  dsimp only
  rw [test_eq hA hw.1, if_pos rfl, Outcome.bind_ok, key]
  exact ⟨_, rfl, rfl, repV_mk hA _ _ (fun i => by simp [extV])⟩

theorem types_setV (ρ : CEnv K) (i : Nat) (b : VB K) :
    CEnv.types { ρ with v := fun j => if j = i then some b else ρ.v j } =
      { ρ.types with v := fun j => if j = i then some b.S else ρ.types.v j } := by
  simp only [CEnv.types, TEnv.mk.injEq, and_true]
  funext j
  split <;> rfl

theorem types_setM (ρ : CEnv K) (i : Nat) (b : MB K) :
    CEnv.types { ρ with m := fun j => if j = i then some b else ρ.m j } =
      { ρ.types with m := fun j => if j = i then some (b.R, b.C) else ρ.types.m j } := by
  simp only [CEnv.types, TEnv.mk.injEq, true_and]
  funext j
  split <;> rfl

theorem goodA_resize (h : EnvRep ρ σ) {i : Nat} {e : Ex K .v}
    (hq : ¬ BadR σ (.varV i) (.eqV e)) (hr : Resizes σ (.varV i) (.eqV e)) {b : CVal K .v}
    {l : CLoc .v} (hv : ρ.v i = some b) (hS : VB.S b = Checks.Resizable)
    (hloc : locate ρ (.varV i) = .ok l) :
    GoodA ρ σ (.varV i) (.eqV e) b l := by
  have hl : l = ⟨.v i, VB.S b, VB.n b, fun k => (k, 0)⟩ := by
    unfold locate at hloc; rw [hv] at hloc; cases hloc; rfl
  subst hl
  have hno : (∀ n (x : Fin n → K), n ≠ 0 → ¬ Den σ e (.v x)) →
      ∀ σ', ¬ Step σ (.asg (.varV i) (.eqV e)) σ' := fun hn σ' hs => by
    cases hs with
    | asg h' => exact h' hr
    | resize p d h0 => exact hn _ _ h0 d
  unfold GoodA compR asgAt asgV
  dsimp only
  rw [if_pos hS, hv]
  rcases operand h e (fun q => hq (Or.inl q)) with ⟨h1, h2⟩ | ⟨t, h1, h2, h3⟩ | ⟨be, y, h1, h2, h3, h4⟩
  · rw [h1]; exact ⟨fun hh => by simp at hh, fun _ => hno fun _ x _ => h2 _⟩
  · rw [h1, (srcV_no h).1 h2]; exact ⟨fun _ => hno fun _ x _ => h3 _, fun _ => hno fun _ x _ => h3 _⟩
  · cases y with
    | @v m y =>
      have hm : m ≠ 0 := by
        rintro rfl
        exact hq (Or.inr (Or.inr ⟨hr, Or.inl ⟨y, (h4 _).2 rfl⟩⟩))
      have hdang : ∃ s, srcV ρ e = .ok s ∧
          s.dangles ⟨.v i, VB.S b, VB.n b, fun k => (k, 0)⟩ = .ok () := by
        unfold srcV
        by_cases hve : isView e = true
        · rw [if_pos hve]
          have := lgood h e hve
          unfold LGood at this
          rw [h2] at this
          obtain ⟨le, k1, k2⟩ := this
          rw [k1]
          refine ⟨.live le, rfl, ?_⟩
          show (if VL.root le = .v i ∧ VL.S le ≠ Checks.Resizable then _ else _) = _
          rw [if_neg]
          rintro ⟨e1, e2⟩
          refine hq (Or.inr (Or.inr ⟨hr, Or.inr ⟨i, _, rfl, e1 ▸ k2.2.2.2.1, ?_⟩⟩))
          rintro rfl
          unfold locate at k1
          rw [hv] at k1
          cases k1
          exact e2 hS
        · rw [if_neg hve, h2]
          exact ⟨.tmp be, rfl, rfl⟩
      obtain ⟨s, s1, s2⟩ := hdang
      rw [h1, s1, h2]
      dsimp only [Outcome.bind_ok]
      rw [s2]
      obtain ⟨b', b1, b2, b3⟩ := assign_rsz hS h3 hm
      dsimp only [Outcome.bind_ok]
      rw [b1]
      have hA : Agrees Checks.Resizable m := Or.inr (Or.inl ⟨rfl, hm⟩)
      refine ⟨fun _ => ⟨?_, _, ?_, setV_rep h i (S := .rsz) b2 b3⟩, fun hh => ?_⟩
      · rw [types_setV]
        have : ∀ j, (if j = i then some b'.S else ρ.types.v j) = ρ.types.v j := fun j => by
          split
          · rename_i hj
            subst hj
            simp [CEnv.types, hv, b2, hS]
          · rfl
        simp only [this]
      · obtain ⟨x, hx⟩ := hr
        exact .resize hx ((h4 _).2 rfl) hm
      · rw [show testC (ty b) (ty be) = true from testC_of (show Agrees (VB.S b) m by rw [hS]; exact hA)
          h3.1] at hh
        cases hh

/-! ## Matrices -/

theorem goodA_scalM (h : EnvRep ρ σ) {L : Ex K .m} {s : Ex K .s} {rhs : Rhs K .m}
    (hq : ¬ Quirk σ.types σ s) {b : CVal K .m} {l : CLoc .m}
    {r c : Nat} {X : Matrix (Fin r) (Fin c) K} (hl : LRep ρ σ L l b) (hb : RepM b X)
    (val : K → CEnv K → Nat → Nat → Outcome K) (Y : K → Matrix (Fin r) (Fin c) K)
    (hcomp : compR ρ.types (ty b) rhs = (comp ρ.types s).isSome)
    (hasg : asgM ρ l rhs = (run ρ s).bind fun (k : K) => loopM l (val k) ρ)
    (hden : ∀ y, RDen σ L rhs y → ∃ k, Den σ s k)
    (hY : ∀ k, Den σ s (.s k) → RDen σ L rhs (.m (Y k)))
    (hv : ∀ κ ρ' i j, i < r → j < c → ρ'.read (ML.root l) (ML.cell l i j) = .ok (extM 0 X i j) →
      val κ ρ' i j = .ok (extM 0 (Y κ) i j)) :
    GoodA ρ σ L rhs b l := by
  have hno : (∀ x, ¬ Den σ s x) → ∀ σ', ¬ Step σ (.asg L rhs) σ' := fun hd σ' hs => by
    obtain ⟨_, y, _, h2, _⟩ := step_shape noResM hs
    obtain ⟨k, hk⟩ := hden y h2
    exact hd _ hk
  unfold GoodA asgAt
  dsimp only
  rw [hcomp, hasg]
  rcases operand h s hq with ⟨h1, h2⟩ | ⟨t, h1, h2, h3⟩ | ⟨κ, y, h1, h2, h3, h4⟩
  · rw [h1]; exact ⟨fun hh => by simp at hh, fun _ => hno h2⟩
  · rw [h1, h2]; exact ⟨fun _ => hno h3, fun hh => by simp at hh⟩
  · rw [h1, h2]
    refine ⟨fun _ => ?_, fun hh => by simp at hh⟩
    cases y with
    | s y =>
      obtain rfl : κ = y := h3
      have e1 : r = ML.r l := by rw [hl.1.2.2.1, hb.2.2.1]
      have e2 : c = ML.c l := by rw [hl.1.2.2.2, hb.2.2.2.1]
      subst e1 e2
      rw [Outcome.bind_ok]
      refine finM h noResM hl (Y κ) (hY κ ((h4 _).2 rfl)) (val κ) fun k hk => ?_
      exact hv κ _ _ _ (divmod_lt hk).1 (divmod_lt hk).2 (readM hl hb _ k hk)

theorem goodA_scaM (h : EnvRep ρ σ) {L : Ex K .m} {o : Md} {s : Ex K .s}
    (hq : ¬ BadR σ L (.scaM o s)) {b : CVal K .m} {l : CLoc .m} {x : Val K .m}
    (hl : LRep ρ σ L l b) (hb : Rep b x) (hd : ∀ y, Den σ L y ↔ y = x) :
    GoodA ρ σ L (.scaM o s) b l := by
  cases x with
  | m X =>
    refine goodA_scalM h hq hl hb
      (fun κ ρ i j => (ρ.read (ML.root l) (ML.cell l i j)).bind fun x => .ok (md1 o x κ))
      (fun κ i j => sca o.sca (X i j) κ) rfl rfl ?_ ?_ ?_
    · rintro y ⟨⟩
      rename_i p; cases p; exact ⟨_, ‹_›⟩
    · intro k hk
      exact .scaM (.scaM ((hd _).2 rfl) hk)
    · intro κ ρ' i j hi hj hr
      rw [hr, Outcome.bind_ok]
      cases o <;> simp [extM, hi, hj] <;> rfl

theorem goodA_onesM (h : EnvRep ρ σ) {L : Ex K .m} {s : Ex K .s}
    (hq : ¬ BadR σ L (.onesM s)) {b : CVal K .m} {l : CLoc .m} {x : Val K .m}
    (hl : LRep ρ σ L l b) (hb : Rep b x) (hd : ∀ y, Den σ L y ↔ y = x) :
    GoodA ρ σ L (.onesM s) b l := by
  cases x with
  | m X =>
    refine goodA_scalM h hq hl hb
      (fun κ ρ i j => .ok κ) (fun κ _ _ => κ) rfl rfl ?_ ?_ ?_
    · rintro y ⟨⟩
      exact ⟨_, ‹_›⟩
    · intro k hk
      exact .onesM ((hd _).2 rfl) hk
    · intro κ ρ' i j hi hj hr
      simp [extM, hi, hj]

theorem goodA_onesUpdM (h : EnvRep ρ σ) {L : Ex K .m} {o : BinM} {s : Ex K .s}
    (hq : ¬ BadR σ L (.onesUpdM o s)) {b : CVal K .m} {l : CLoc .m} {x : Val K .m}
    (hl : LRep ρ σ L l b) (hb : Rep b x) (hd : ∀ y, Den σ L y ↔ y = x) :
    GoodA ρ σ L (.onesUpdM o s) b l := by
  cases x with
  | m X =>
    refine goodA_scalM h hq hl hb
      (fun κ ρ i j => (ρ.read (ML.root l) (ML.cell l i j)).bind fun x => .ok (upd1 o x κ))
      (fun κ => mode o.toMode X (fun _ _ => κ)) rfl rfl ?_ ?_ ?_
    · rintro y ⟨⟩
      rename_i p; cases p; exact ⟨_, ‹_›⟩
    · intro k hk
      exact .onesUpdM (.onesOpM ((hd _).2 rfl) hk)
    · intro κ ρ' i j hi hj hr
      rw [hr, Outcome.bind_ok]
      cases o <;> simp [extM, hi, hj] <;> rfl

theorem testM_eq {r c r' c' : Nat} {R C R' C' : Int} {F : Unit → Outcome (CEnv K)} (h1 : AgreesM R r)
    (h2 : AgreesM C c) (h3 : AgreesM R' r') (h4 : AgreesM C' c') :
    ((test R R' r r').bind fun _ => (test C C' c c').bind F) =
      if r = r' ∧ c = c' then F () else .abort := by
  rw [test_eq h1.agrees h3.agrees, test_eq h2.agrees h4.agrees]
  by_cases e1 : r = r'
  · rw [if_pos e1, Outcome.bind_ok]
    by_cases e2 : c = c'
    · rw [if_pos e2, if_pos ⟨e1, e2⟩]; rfl
    · rw [if_neg e2, if_neg (fun e => e2 e.2)]; rfl
  · rw [if_neg e1, if_neg (show ¬ (r = r' ∧ c = c') from fun e => e1 e.1)]; rfl

theorem goodA_eqM (h : EnvRep ρ σ) {L : Ex K .m} {e : Ex K .m}
    (hq : ¬ BadR σ L (.eqM e)) {b : CVal K .m} {l : CLoc .m} {x : Val K .m}
    (hl : LRep ρ σ L l b) (hb : Rep b x) (hd : ∀ y, Den σ L y ↔ y = x) :
    GoodA ρ σ L (.eqM e) b l := by
  cases x with
  | @m r c X =>
  have hno : (∀ x : Matrix (Fin r) (Fin c) K, ¬ Den σ e (.m x)) →
      ∀ σ', ¬ Step σ (.asg L (.eqM e)) σ' := fun hn σ' hs => by
    obtain ⟨_, y, h1, h2, h3⟩ := step_shape noResM hs
    cases (hd _).1 h1
    cases h3
    cases h2 with
    | eqM p => exact hn _ p
  have e1 : r = ML.r l := by rw [hl.1.2.2.1, hb.2.2.1]
  have e2 : c = ML.c l := by rw [hl.1.2.2.2, hb.2.2.2.1]
  unfold GoodA compR asgAt asgM
  dsimp only
  rcases operand h e (fun q => hq (Or.inl q)) with ⟨h1, h2⟩ | ⟨t, h1, h2, h3⟩ | ⟨be, y, h1, h2, h3, h4⟩
  · rw [h1]; exact ⟨fun hh => by simp at hh, fun _ => hno fun x => h2 _⟩
  · rw [h1, (srcM_no h).1 h2]; exact ⟨fun _ => hno fun x => h3 _, fun _ => hno fun x => h3 _⟩
  · cases y with
    | @m r' c' Y =>
      obtain ⟨s, s1, ⟨s2, s3, s4, s5⟩, s6⟩ := srcM_ok h hl (fun q => hq (Or.inr q)) h2 h3
      rw [h1, s1]
      dsimp only [Outcome.bind_ok]
      rw [s2, s3, s4, s5, hl.1.1, hl.1.2.1, ← e1, ← e2, h3.2.2.1, h3.2.2.2.1,
        testM_eq hb.1 hb.2.1 h3.1 h3.2.1]
      by_cases hnm : r = r' ∧ c = c'
      · obtain ⟨rfl, rfl⟩ := hnm
        subst e1 e2
        rw [if_pos ⟨rfl, rfl⟩]
        refine ⟨fun _ => ?_, fun hh => ?_⟩
        · exact finM h noResM hl Y (.eqM ((h4 _).2 rfl)) _ fun k hk => s6 rfl rfl _ k hk
        · rw [show testC (ty b).1 (ty be).1 = true from testC_of hb.1.agrees h3.1.agrees,
            show testC (ty b).2 (ty be).2 = true from testC_of hb.2.1.agrees h3.2.1.agrees] at hh
          cases hh
      · have : ∀ σ', ¬ Step σ (.asg L (.eqM e)) σ' := hno fun z hz => by
          cases (h4 _).1 hz; exact hnm ⟨rfl, rfl⟩
        rw [if_neg hnm]
        exact ⟨fun _ => this, fun _ => this⟩

theorem goodA_updM (h : EnvRep ρ σ) {L : Ex K .m} {o : BinM} {e : Ex K .m}
    (hq : ¬ BadR σ L (.updM o e)) {b : CVal K .m} {l : CLoc .m} {x : Val K .m}
    (hl : LRep ρ σ L l b) (hb : Rep b x) (hd : ∀ y, Den σ L y ↔ y = x) :
    GoodA ρ σ L (.updM o e) b l := by
  cases x with
  | @m r c X =>
  have hno : (∀ x : Matrix (Fin r) (Fin c) K, ¬ Den σ e (.m x)) →
      ∀ σ', ¬ Step σ (.asg L (.updM o e)) σ' := fun hn σ' hs => by
    obtain ⟨_, y, h1, h2, h3⟩ := step_shape noResM hs
    cases h2 with
    | updM p => cases p with | binM p q => cases (hd _).1 p; exact hn _ q
  have e1 : r = ML.r l := by rw [hl.1.2.2.1, hb.2.2.1]
  have e2 : c = ML.c l := by rw [hl.1.2.2.2, hb.2.2.2.1]
  unfold GoodA compR asgAt asgM
  dsimp only
  rcases operand h e (fun q => hq (Or.inl q)) with ⟨h1, h2⟩ | ⟨t, h1, h2, h3⟩ | ⟨be, y, h1, h2, h3, h4⟩
  · rw [h1]; exact ⟨fun hh => by simp at hh, fun _ => hno fun x => h2 _⟩
  · rw [h1, (srcM_no h).1 h2]; exact ⟨fun _ => hno fun x => h3 _, fun _ => hno fun x => h3 _⟩
  · cases y with
    | @m r' c' Y =>
      obtain ⟨s, s1, ⟨s2, s3, s4, s5⟩, s6⟩ := srcM_ok h hl (fun q => hq (Or.inr q)) h2 h3
      rw [h1, s1]
      dsimp only [Outcome.bind_ok]
      rw [s2, s3, s4, s5, hl.1.1, hl.1.2.1, ← e1, ← e2, h3.2.2.1, h3.2.2.2.1,
        testM_eq hb.1 hb.2.1 h3.1 h3.2.1]
      by_cases hnm : r = r' ∧ c = c'
      · obtain ⟨rfl, rfl⟩ := hnm
        subst e1 e2
        rw [if_pos ⟨rfl, rfl⟩]
        refine ⟨fun _ => ?_, fun hh => ?_⟩
        · refine finM h noResM hl (binM o X Y)
            (.updM (.binM ((hd _).2 rfl) ((h4 _).2 rfl))) _ fun k hk => ?_
          rw [readM hl hb _ k hk, Outcome.bind_ok, s6 rfl rfl _ k hk, Outcome.bind_ok]
          unfold flatY
          rw [extM_lt (divmod_lt hk).1 (divmod_lt hk).2, extM_lt (divmod_lt hk).1 (divmod_lt hk).2,
            extM_lt (divmod_lt hk).1 (divmod_lt hk).2]
          cases o <;> rfl
        · rw [show testC (ty b).1 (ty be).1 = true from testC_of hb.1.agrees h3.1.agrees,
            show testC (ty b).2 (ty be).2 = true from testC_of hb.2.1.agrees h3.2.1.agrees] at hh
          cases hh
      · have : ∀ σ', ¬ Step σ (.asg L (.updM o e)) σ' := hno fun z hz => by
          cases (h4 _).1 hz; exact hnm ⟨rfl, rfl⟩
        rw [if_neg hnm]
        exact ⟨fun _ => this, fun _ => this⟩

theorem loopM_ok {L : Ex K .m} {l : CLoc .m} {b : CVal K .m} (hl : LRep ρ σ L l b)
    (z : Nat → K) (val : CEnv K → Nat → Nat → Outcome K)
    (hv : ∀ k, k < ML.r l * ML.c l →
      val (ρ.over (ML.root l) (acc (flat l) z k)) (k / ML.c l) (k % ML.c l) = .ok (z k)) :
    loopM l val ρ = .ok (ρ.over (ML.root l) (acc (flat l) z (ML.r l * ML.c l))) := by
  obtain ⟨h1, h2, h3, h4, h5, h6⟩ := hl
  unfold loopM
  rw [forO_nested (ML.r l) (ML.c l) (fun i j ρ => (val ρ i j).bind fun y =>
    ρ.write (ML.root l) (ML.cell l i j) y)]
  exact loop_ok ρ (ML.root l) (ML.r l * ML.c l) (flat l) z
    (fun ρ k => val ρ (k / ML.c l) (k % ML.c l))
    (fun k hk => (h6 _ _ (divmod_lt hk).1 (divmod_lt hk).2).1) hv

theorem goodA_identM (h : EnvRep ρ σ) {L : Ex K .m} {s : Ex K .s}
    (hq : ¬ BadR σ L (.identM s)) {b : CVal K .m} {l : CLoc .m} {x : Val K .m}
    (hl : LRep ρ σ L l b) (hb : Rep b x) (hd : ∀ y, Den σ L y ↔ y = x) :
    GoodA ρ σ L (.identM s) b l := by
  cases x with
  | @m r c X =>
  have hno : (r = c → ∀ x, ¬ Den σ s x) → ∀ σ', ¬ Step σ (.asg L (.identM s)) σ' := fun hn σ' hs => by
    obtain ⟨_, y, h1, h2, h3⟩ := step_shape noResM hs
    cases h2 with
    | identM p q => cases (hd _).1 p; exact hn rfl _ q
  have e1 : r = ML.r l := by rw [hl.1.2.2.1, hb.2.2.1]
  have e2 : c = ML.c l := by rw [hl.1.2.2.2, hb.2.2.2.1]
  have ht : test (ML.R l) (ML.C l) (ML.r l) (ML.c l) = if r = c then .ok () else .abort := by
    rw [hl.1.1, hl.1.2.1, ← e1, ← e2, test_eq hb.1.agrees hb.2.1.agrees]
  unfold GoodA compR asgAt asgM
  dsimp only
  rcases operand h s hq with ⟨h1, h2⟩ | ⟨t, h1, h2, h3⟩ | ⟨κ, y, h1, h2, h3, h4⟩
  · rw [h1]; exact ⟨fun hh => by simp at hh, fun _ => hno fun _ => h2⟩
  · rw [h1, h2]; exact ⟨fun _ => hno fun _ => h3, fun _ => hno fun _ => h3⟩
  · rw [h1, h2]
    cases y with
    | s y =>
      obtain rfl : κ = y := h3
      dsimp only [Outcome.bind_ok]
      rw [ht]
      by_cases hrc : r = c
      · subst hrc
        rw [if_pos rfl, Outcome.bind_ok]
        refine ⟨fun _ => ?_, fun hh => ?_⟩
        · rw [loopM_ok hl (fun _ => 0) _ (fun k hk => rfl), Outcome.bind_ok]
          have hl' := hl
          obtain ⟨_, _, _, g4, g5, g6⟩ := hl'
          have := loop_ok (ρ.over (ML.root l) (acc (flat l) (fun _ => 0) (ML.r l * ML.c l)))
            (ML.root l) (ML.r l) (fun i => ML.cell l i i) (fun _ => κ) (fun _ _ => .ok κ)
            (fun k hk => (over_InB _ _ _ _ _).2 (g6 k k hk (by omega)).1) (fun _ _ => rfl)
          have this' : forO (ML.r l) (fun i (t : CEnv K) => t.write (ML.root l) (ML.cell l i i) κ)
              (ρ.over (ML.root l) (acc (flat l) (fun _ => 0) (ML.r l * ML.c l))) = _ := this
          rw [this', over_over]
          clear this this'
          have hden : RDen σ L (.identM s)
              (.m (fun (i : Fin (ML.r l)) (j : Fin (ML.c l)) => if (i : Nat) = j then κ else 0)) := by
            have := RDen.identM (σ := σ) (L := L) (s := s) ((hd _).2 rfl) ((h4 _).2 rfl)
            generalize ML.r l = R at *
            generalize ML.c l = C at *
            subst e1
            subst e2
            have e : (fun (i : Fin r) (j : Fin r) => if (i : Nat) = j then κ else 0) =
                (κ • (1 : Matrix (Fin r) (Fin r) K)) := by
              funext i j
              simp [Matrix.one_apply, Fin.ext_iff]
            rw [e]
            exact this
          have hsq : ML.r l = ML.c l := by omega
          have hdinj : ∀ i j, i < ML.r l → j < ML.r l → ML.cell l i i = ML.cell l j j → i = j :=
            fun i j hi hj e => (g5 _ _ _ _ hi (by omega) hj (by omega) e).1
          refine finish h noResM g4 hden .m _ (fun p x ha => ?_) (fun p hp => ?_) (fun p x ha => ?_)
          · cases ha with
            | m _ _ i j =>
              left
              by_cases hij : (i : Nat) = j
              · have := acc_some (fun i => ML.cell l i i) (fun _ => κ) (ML.r l) hdinj i i.2
                beta_reduce
                beta_reduce at this
                rw [if_pos hij, ← hij, this]; rfl
              · rw [acc_none (fun i => ML.cell l i i) (fun _ => κ) (ML.r l) _ fun k hk e => by
                  have := g5 _ _ _ _ hk (by omega) i.2 j.2 e; omega]
                obtain ⟨d1, d2, d3⟩ := divmod_mk (r := ML.r l) (c := ML.c l) i j i.2 j.2
                have := acc_some (flat l) (fun _ => (0 : K)) (ML.r l * ML.c l) (flat_inj g5) _ d1
                unfold flat at this
                rw [d2, d3] at this
                beta_reduce
                rw [if_neg hij, Option.none_or]
                exact this
          · rw [acc_none (fun i => ML.cell l i i), acc_none, Option.none_or]
            · intro k hk e
              subst e
              exact hp _ (At.m (fun (i : Fin (ML.r l)) (j : Fin (ML.c l)) => ML.cell l i j) _
                ⟨_, (divmod_lt hk).1⟩ ⟨_, (divmod_lt hk).2⟩)
            · intro k hk e
              subst e
              exact hp _ (At.m (fun (i : Fin (ML.r l)) (j : Fin (ML.c l)) => ML.cell l i j) _
                ⟨k, hk⟩ ⟨k, by omega⟩)
          · cases ha with
            | m _ _ i j => exact (g6 i j i.2 j.2).1
        · rw [show testC (ty b).1 (ty b).2 = true from testC_of hb.1.agrees hb.2.1.agrees] at hh
          simp at hh
      · rw [if_neg hrc]
        have : ∀ σ', ¬ Step σ (.asg L (.identM s)) σ' := hno fun e => absurd e hrc
        exact ⟨fun _ => this, fun _ => this⟩

theorem goodA_identUpdM (h : EnvRep ρ σ) {L : Ex K .m} {s : Ex K .s}
    (hq : ¬ BadR σ L (.identUpdM s)) {b : CVal K .m} {l : CLoc .m} {x : Val K .m}
    (hl : LRep ρ σ L l b) (hb : Rep b x) (hd : ∀ y, Den σ L y ↔ y = x) :
    GoodA ρ σ L (.identUpdM s) b l := by
  cases x with
  | @m r c X =>
  have hno : (r = c → ∀ x, ¬ Den σ s x) → ∀ σ', ¬ Step σ (.asg L (.identUpdM s)) σ' :=
    fun hn σ' hs => by
      obtain ⟨_, y, h1, h2, h3⟩ := step_shape noResM hs
      cases h2 with
      | identUpdM p => cases p with | identOpM p q => cases (hd _).1 p; exact hn rfl _ q
  have e1 : r = ML.r l := by rw [hl.1.2.2.1, hb.2.2.1]
  have e2 : c = ML.c l := by rw [hl.1.2.2.2, hb.2.2.2.1]
  have ht : test (ML.R l) (ML.C l) (ML.r l) (ML.c l) = if r = c then .ok () else .abort := by
    rw [hl.1.1, hl.1.2.1, ← e1, ← e2, test_eq hb.1.agrees hb.2.1.agrees]
  unfold GoodA compR asgAt asgM
  dsimp only
  rcases operand h s hq with ⟨h1, h2⟩ | ⟨t, h1, h2, h3⟩ | ⟨κ, y, h1, h2, h3, h4⟩
  · rw [h1]; exact ⟨fun hh => by simp at hh, fun _ => hno fun _ => h2⟩
  · rw [h1, h2]; exact ⟨fun _ => hno fun _ => h3, fun _ => hno fun _ => h3⟩
  · rw [h1, h2]
    cases y with
    | s y =>
      obtain rfl : κ = y := h3
      dsimp only [Outcome.bind_ok]
      rw [ht]
      by_cases hrc : r = c
      · subst hrc
        rw [if_pos rfl, Outcome.bind_ok]
        refine ⟨fun _ => ?_, fun hh => ?_⟩
        · have hl' := hl
          obtain ⟨_, _, _, g4, g5, g6⟩ := hl'
          have hsq : ML.r l = ML.c l := by omega
          have hdinj : ∀ i j, i < ML.r l → j < ML.r l → ML.cell l i i = ML.cell l j j → i = j :=
            fun i j hi hj e => (g5 _ _ _ _ hi (by omega) hj (by omega) e).1
          have hget : ∀ i j, i < r → j < r → MB.get b i j = .ok (extM 0 X i j) :=
            fun i j hi hj => hb.get 0 i j hi hj
          have := loop_ok ρ (ML.root l) (ML.r l) (fun i => ML.cell l i i)
            (fun i => extM 0 X i i + κ)
            (fun ρ i => (ρ.read (ML.root l) (ML.cell l i i)).bind fun x => .ok (x + κ))
            (fun k hk => (g6 k k hk (by omega)).1) (fun k hk => by
              rw [read_over_ne _ _ _ _ _ fun _ => acc_none _ _ _ _ fun i hi e => by
                have := hdinj i k (by omega) hk e; omega]
              rw [(g6 k k hk (by omega)).2, hget k k (by omega) (by omega), Outcome.bind_ok])
          rw [forO_congr (ML.r l) _ (fun k ρ =>
            ((ρ.read (ML.root l) (ML.cell l k k)).bind fun x => .ok (x + κ)).bind fun x =>
              ρ.write (ML.root l) (ML.cell l k k) x) ρ (fun k t _ => by
                cases t.read (ML.root l) (ML.cell l k k) <;> rfl), this]
          clear this
          have hden : RDen σ L (.identUpdM s) (.m (fun (i : Fin (ML.r l)) (j : Fin (ML.c l)) =>
              extM 0 X i j + if (i : Nat) = j then κ else 0)) := by
            have := RDen.identUpdM (σ := σ) (L := L) (s := s)
              (.identOpM (o := .add) ((hd _).2 rfl) ((h4 _).2 rfl))
            generalize ML.r l = R at *
            generalize ML.c l = C at *
            subst e1
            subst e2
            have e : (fun (i : Fin r) (j : Fin r) => extM 0 X i j + if (i : Nat) = j then κ else 0) =
                mode .add X (κ • (1 : Matrix (Fin r) (Fin r) K)) := by
              funext i j
              simp [mode, Matrix.one_apply, Fin.ext_iff, extM]
            rw [e]
            exact this
          refine finish h noResM g4 hden .m _ (fun p x ha => ?_) (fun p hp => ?_) (fun p x ha => ?_)
          · cases ha with
            | m _ _ i j =>
              by_cases hij : (i : Nat) = j
              · left
                have := acc_some (fun i => ML.cell l i i) (fun i => extM 0 X i i + κ) (ML.r l) hdinj
                  i i.2
                beta_reduce
                beta_reduce at this
                rw [if_pos hij, ← hij, this]
              · right
                beta_reduce
                rw [if_neg hij, add_zero]
                refine ⟨acc_none (fun i => ML.cell l i i) _ (ML.r l) _ fun k hk e => by
                  have := g5 _ _ _ _ hk (by omega) i.2 j.2 e; omega, ?_⟩
                obtain ⟨z, z1, z2⟩ := read_cell h _ _ (g6 i j i.2 j.2).1
                rw [z2, ← Outcome.ok.inj (z1.symm.trans ((g6 i j i.2 j.2).2.trans
                  (hget i j (by omega) (by omega))))]
          · rw [acc_none (fun i => ML.cell l i i)]
            intro k hk e
            subst e
            exact hp _ (At.m (fun (i : Fin (ML.r l)) (j : Fin (ML.c l)) => ML.cell l i j) _
              ⟨k, hk⟩ ⟨k, by omega⟩)
          · cases ha with
            | m _ _ i j => exact (g6 i j i.2 j.2).1
        · rw [show testC (ty b).1 (ty b).2 = true from testC_of hb.1.agrees hb.2.1.agrees] at hh
          simp at hh
      · rw [if_neg hrc]
        have : ∀ σ', ¬ Step σ (.asg L (.identUpdM s)) σ' := hno fun e => absurd e hrc
        exact ⟨fun _ => this, fun _ => this⟩

/-! ## Statements and programs -/

theorem goodS_eqV (h : EnvRep ρ σ) (L e : Ex K .v) (hb : ¬ Bad σ (.asg L (.eqV e))) :
    GoodS ρ σ (.asg L (.eqV e)) := by
  refine goodS_asg h L _ (fun q => hb (Or.inl q)) fun b l x hc hloc hl hr hd => ?_
  have hq : ¬ BadR σ L (.eqV e) := fun q => hb (Or.inr q)
  by_cases hS : VL.S l = Checks.Resizable
  · have hv : isView L = true := loc_isView hl.2.2.2.1
    obtain ⟨i, rfl⟩ := view_resizable h hv hloc hS
    rcases h.v i with ⟨h1, h2⟩ | ⟨b', S, n, y, h1, h2, h3, h4⟩
    · unfold locate at hloc; rw [h1] at hloc; cases hloc
    · have hbb : b = b' := by
        unfold run at hc; rw [h1] at hc; exact (Outcome.ok.inj hc).symm
      subst hbb
      have hS' : VB.S b = Checks.Resizable := by rw [← hl.1]; exact hS
      have hz : S = .rsz := toInt_rsz.1 (h3.symm.trans hS')
      subst hz
      exact goodA_resize h hq ⟨_, h2⟩ h1 hS' hloc
  · have hnr : ¬ Resizes σ L (.eqV e) := by
      intro hr'
      cases L with
      | varV i =>
        obtain ⟨x', hx'⟩ := hr'
        rcases h.v i with ⟨h1, h2⟩ | ⟨b', S, n, y, h1, h2, h3, h4⟩
        · rw [h2] at hx'; cases hx'
        · rw [h2] at hx'
          cases hx'
          apply hS
          unfold locate at hloc
          rw [h1] at hloc
          cases hloc
          exact h3
      | _ => exact hr'
    exact goodA_eqV h hq hnr hl hr hd hS


/-- Every statement outside the library's restrictions does what it should. -/
theorem goodS (h : EnvRep ρ σ) (s : Stmt K) (hb : ¬ Bad σ s) : GoodS ρ σ s := by
  cases s with
  | declV i S e =>
    unfold GoodS compS execS
    dsimp only
    rcases operand h (.convV S e) hb with ⟨h1, h2⟩ | ⟨t, h1, h2, h3⟩ | ⟨b, x, h1, h2, h3, h4⟩
    · rw [h1]
      intro σ' hs
      cases hs with | declV p => exact h2 _ p
    · rw [h1, h2]
      intro σ' hs
      cases hs with | declV p => exact h3 _ p
    · have hS : ty b = S.toInt := by
        revert h1
        unfold comp
        cases comp ρ.types e with
        | none => intro h1; cases h1
        | some t =>
          intro h1
          dsimp only [Option.bind_some] at h1
          split at h1
          · exact (Option.some.inj h1).symm
          · cases h1
      rw [h1, h2]
      cases x with
      | v x =>
        refine ⟨types_setV _ _ _, _, .declV ((h4 _).2 rfl), setV_rep h i hS h3⟩
  | declM i R C e =>
    unfold GoodS compS execS
    dsimp only
    rcases operand h (.convM R C e) hb with ⟨h1, h2⟩ | ⟨t, h1, h2, h3⟩ | ⟨b, x, h1, h2, h3, h4⟩
    · rw [h1]
      intro σ' hs
      cases hs with | declM p => exact h2 _ p
    · rw [h1, h2]
      intro σ' hs
      cases hs with | declM p => exact h3 _ p
    · have hS : ty b = (R.toInt, C.toInt) := by
        revert h1
        unfold comp
        cases comp ρ.types e with
        | none => intro h1; cases h1
        | some t =>
          intro h1
          dsimp only [Option.bind_some] at h1
          split at h1
          · exact (Option.some.inj h1).symm
          · cases h1
      rw [h1, h2]
      cases x with
      | m x =>
        exact ⟨types_setM _ _ _, _, .declM ((h4 _).2 rfl),
          setM_rep h i (congrArg Prod.fst hS) (congrArg Prod.snd hS) h3⟩
  | asg L r =>
    have hq : ¬ BadR σ L r := fun q => hb (Or.inr q)
    cases r with
    | eqV e => exact goodS_eqV h L e hb
    | eqS e => exact goodS_asg h L _ (fun q => hb (Or.inl q)) fun b l x _ _ hl _ _ => goodA_eqS h hq hl
    | updS => exact goodS_asg h L _ (fun q => hb (Or.inl q)) fun b l x _ _ hl hr hd => goodA_updS h hq hl hr hd
    | updV => exact goodS_asg h L _ (fun q => hb (Or.inl q)) fun b l x _ _ hl hr hd => goodA_updV h hq hl hr hd
    | scaV => exact goodS_asg h L _ (fun q => hb (Or.inl q)) fun b l x _ _ hl hr hd => goodA_scaV h hq hl hr hd
    | onesV => exact goodS_asg h L _ (fun q => hb (Or.inl q)) fun b l x _ _ hl hr hd => goodA_onesV h hq hl hr hd
    | onesUpdV => exact goodS_asg h L _ (fun q => hb (Or.inl q)) fun b l x _ _ hl hr hd => goodA_onesUpdV h hq hl hr hd
    | eqM => exact goodS_asg h L _ (fun q => hb (Or.inl q)) fun b l x _ _ hl hr hd => goodA_eqM h hq hl hr hd
    | updM => exact goodS_asg h L _ (fun q => hb (Or.inl q)) fun b l x _ _ hl hr hd => goodA_updM h hq hl hr hd
    | scaM => exact goodS_asg h L _ (fun q => hb (Or.inl q)) fun b l x _ _ hl hr hd => goodA_scaM h hq hl hr hd
    | onesM => exact goodS_asg h L _ (fun q => hb (Or.inl q)) fun b l x _ _ hl hr hd => goodA_onesM h hq hl hr hd
    | onesUpdM => exact goodS_asg h L _ (fun q => hb (Or.inl q)) fun b l x _ _ hl hr hd => goodA_onesUpdM h hq hl hr hd
    | identM => exact goodS_asg h L _ (fun q => hb (Or.inl q)) fun b l x _ _ hl hr hd => goodA_identM h hq hl hr hd
    | identUpdM => exact goodS_asg h L _ (fun q => hb (Or.inl q)) fun b l x _ _ hl hr hd => goodA_identUpdM h hq hl hr hd

/-- The outcome of a program. -/
def GoodP (ρ : CEnv K) (σ : SEnv K) (p : List (Stmt K)) : Prop :=
  match execP ρ p with
  | .ok ρ' => ∃ σ', Steps σ p σ' ∧ EnvRep ρ' σ'
  | .compileError => ∀ σ', ¬ Steps σ p σ'
  | .abort => ∀ σ', ¬ Steps σ p σ'
  | .ub => False

theorem goodP (h : EnvRep ρ σ) (p : List (Stmt K)) (ha : Avoids σ p) : GoodP ρ σ p := by
  induction p generalizing ρ σ with
  | nil => exact ⟨σ, .nil, h⟩
  | cons s p ih =>
    have hs := goodS h s ha.1
    unfold GoodS at hs
    have hno : (∀ σ', ¬ Step σ s σ') → ∀ σ', ¬ Steps σ (s :: p) σ' := fun hn σ' hp => by
      cases hp with | cons q _ => exact hn _ q
    unfold GoodP execP compP runP
    cases hc : compS ρ.types s with
    | none => rw [hc] at hs; exact hno hs
    | some Γ =>
      rw [hc] at hs
      dsimp only [Option.bind_some] at hs ⊢
      cases hr : execS ρ s with
      | abort =>
        rw [hr] at hs
        cases hcp : compP Γ p with
        | none => exact hno hs
        | some Γ' => exact hno hs
      | ub => rw [hr] at hs; exact hs.elim
      | ok ρ' =>
        rw [hr] at hs
        obtain ⟨ht, σ1, k1, k2⟩ := hs
        have := ih k2 (ha.2 σ1 k1)
        unfold GoodP execP at this
        rw [ht] at this
        have hno' : (∀ σ', ¬ Steps σ1 p σ') → ∀ σ', ¬ Steps σ (s :: p) σ' := fun hn σ' hp => by
          cases hp with
          | cons q q' => cases step_functional q k1; exact hn _ q'
        cases hcp : compP Γ p with
        | none => rw [hcp] at this; exact hno' this
        | some Γ' =>
          rw [hcp] at this
          dsimp only [Outcome.bind_ok] at this ⊢
          cases hrp : runP ρ' p with
          | ok ρ2 =>
            rw [hrp] at this
            obtain ⟨σ2, m1, m2⟩ := this
            exact ⟨σ2, .cons k1 m1, m2⟩
          | abort => rw [hrp] at this; exact hno' this
          | ub => rw [hrp] at this; exact this

/-! ## C66 -/

/-- The meaning of a program is unique. -/
theorem c66_deterministic {p : List (Stmt K)} {σ σ1 σ2 : SEnv K} (h1 : Steps σ p σ1)
    (h2 : Steps σ p σ2) : σ1 = σ2 := by
  induction h1 with
  | nil => cases h2; rfl
  | cons a _ ih => cases h2 with | cons b c => cases step_functional a b; exact ih c

/-- A program that runs to its end leaves every variable with the contents, and the declared sizes,
that the mathematics says. -/
theorem c66_sound (h : EnvRep ρ σ) (p : List (Stmt K)) (ha : Avoids σ p) {ρ' : CEnv K}
    (he : execP ρ p = .ok ρ') : ∃ σ', Steps σ p σ' ∧ EnvRep ρ' σ' := by
  have := goodP h p ha
  unfold GoodP at this
  rw [he] at this
  exact this

/-- A program that makes sense compiles, runs to its end, and computes its meaning. -/
theorem c66_complete (h : EnvRep ρ σ) (p : List (Stmt K)) (ha : Avoids σ p) {σ' : SEnv K}
    (hs : Steps σ p σ') : ∃ ρ', execP ρ p = .ok ρ' ∧ EnvRep ρ' σ' := by
  have := goodP h p ha
  unfold GoodP at this
  cases he : execP ρ p with
  | ok ρ' =>
    rw [he] at this
    obtain ⟨σ1, h1, h2⟩ := this
    cases c66_deterministic hs h1
    exact ⟨ρ', rfl, h2⟩
  | compileError => rw [he] at this; exact (this _ hs).elim
  | abort => rw [he] at this; exact (this _ hs).elim
  | ub => rw [he] at this; exact this.elim

/-- No undefined behaviour. -/
theorem c66_safe (h : EnvRep ρ σ) (p : List (Stmt K)) (ha : Avoids σ p) : execP ρ p ≠ .ub := by
  intro he
  have := goodP h p ha
  unfold GoodP at this
  rw [he] at this
  exact this

/-- A program that does not make sense is rejected, by the compiler or by a run-time check. -/
theorem c66_reject (h : EnvRep ρ σ) (p : List (Stmt K)) (ha : Avoids σ p) :
    (∀ σ', ¬ Steps σ p σ') ↔ execP ρ p = .compileError ∨ execP ρ p = .abort := by
  have := goodP h p ha
  unfold GoodP at this
  cases he : execP ρ p with
  | ok ρ' =>
    rw [he] at this
    obtain ⟨σ1, h1, h2⟩ := this
    simp only [reduceCtorEq, or_self, iff_false]
    exact fun hn => hn _ h1
  | compileError => rw [he] at this; simpa using this
  | abort => rw [he] at this; simpa using this
  | ub => rw [he] at this; exact this.elim


/-! ## Examples and restrictions

The environment `exEnv` of C65: `v0 = [1,2,3]`, `v1 = [4,5,6]` (`Vector<3>`), `v2 = [7,8]`
(`Vector<Resizable>`), `m0 = [1 0 2; 0 1 1]` (`Matrix<Dynamic,3>`). -/

/-- after `m0.T()[1] += v2` -/
def exEnv1 : SEnv ℚ := exEnv.setM 0 (.dyn, .st 3) (.m !![(1:ℚ), 7, 2; 0, 9, 1])
/-- after `v2 = v0` -/
def exEnv2 : SEnv ℚ := exEnv1.setV 2 .rsz (.v ![(1:ℚ), 2, 3])
/-- after `Vector<> v3(m0 * v2)` -/
def exEnv3 : SEnv ℚ := exEnv2.setV 3 .dyn (.v ![(21:ℚ), 21])

def exS1 : Stmt ℚ := .asg (.row (.transp (.varM 0)) 1) (.updV .add (.varV 2))
def exS2 : Stmt ℚ := .asg (.varV 2) (.eqV (.varV 0))
def exS3 : Stmt ℚ := .declV 3 .dyn (.mulMV (.varM 0) (.varV 2))

theorem exStep1 : Step exEnv exS1 exEnv1 := by
  have hL : Loc exEnv (.row (.transp (.varM 0)) 1) (.m 0) (.v (fun i : Fin 2 => ((i : Nat), 1))) :=
    .row (.transp (.varM rfl)) (k := 1) rfl (by norm_num)
  have hD : Den exEnv (.row (.transp (.varM 0)) 1) (.v (!![(1:ℚ), 0, 2; 0, 1, 1]ᵀ 1)) :=
    .row (.transp (.varM rfl)) (k := 1) rfl (by norm_num)
  refine .asg (y := .v ![(7:ℚ), 9]) id hL ?_ ?_
  · have := RDen.updV (L := .row (.transp (.varM 0)) 1) (o := .add) (e := .varV 2)
      (.binV (o := .add) hD (.varV rfl))
    convert this using 2
    funext i
    fin_cases i <;> simp [binV, Matrix.transpose] <;> norm_num
  · refine ⟨.v, fun r' => ?_, fun p x ha => ?_, fun r' p hn => ?_⟩
    · rcases r' with i | i
      · rfl
      · rcases i with _ | i <;> rfl
    · cases ha with
      | v _ _ i => fin_cases i <;> rfl
    · rcases r' with i | i
      · rfl
      · rcases i with _ | i
        · have hn := hn rfl
          simp only [exEnv1, SEnv.cell, SEnv.setM, exEnv, if_true]
          split_ifs with h
          · obtain ⟨p1, p2⟩ := p
            obtain ⟨h1, h2⟩ := h
            dsimp only at h1 h2
            have h0 := hn 7
            have h9 := hn 9
            interval_cases p1 <;> interval_cases p2 <;> first
              | rfl
              | exact (h0 (At.v (fun i : Fin 2 => ((i : Nat), 1)) ![(7:ℚ), 9] 0)).elim
              | exact (h9 (At.v (fun i : Fin 2 => ((i : Nat), 1)) ![(7:ℚ), 9] 1)).elim
          · rfl
        · rfl

theorem exStep2 : Step exEnv1 exS2 exEnv2 :=
  .resize (x := .v ![(7:ℚ), 8]) rfl (.varV rfl) (by norm_num)

theorem exStep3 : Step exEnv2 exS3 exEnv3 := by
  have : Den exEnv2 (.mulMV (.varM 0) (.varV 2)) (.v (!![(1:ℚ), 7, 2; 0, 9, 1] *ᵥ ![(1:ℚ), 2, 3])) :=
    .mulMV (.varM rfl) (.varV rfl)
  have h2 := Step.declV (i := 3) (Den.convV (S := .dyn) this trivial)
  have e : (!![(1:ℚ), 7, 2; 0, 9, 1] *ᵥ ![(1:ℚ), 2, 3]) = ![(21:ℚ), 21] := by
    funext i
    fin_cases i <;> simp [Matrix.mulVec, dotProduct, Fin.sum_univ_succ] <;> norm_num
  rw [e] at h2
  exact h2

theorem exAvoids : Avoids exEnv [exS1, exS2, exS3] := by
  refine ⟨?_, fun σ1 h1 => ?_⟩
  · rintro (hq | hq | ⟨r, n, m, f, g, h1, h2, _⟩)
    · rcases hq with hq | ⟨r, c, X, h1, h2⟩
      · exact hq
      · cases h1 with
        | transp h1 => cases h1 with | varM h1 => cases h1; exact h2 (by norm_num)
    · exact hq
    · cases h2
      cases h1 with | row h1 => cases h1 with | transp h1 => cases h1
  · cases step_functional h1 exStep1
    refine ⟨?_, fun σ2 h2 => ?_⟩
    · rintro (hq | hq | ⟨hq, _⟩ | ⟨_, ⟨x, hx⟩ | ⟨i, f, h1, h2, _⟩⟩)
      · exact hq
      · exact hq
      · exact hq ⟨_, rfl⟩
      · cases hx with | varV hx => cases hx
      · cases h1
        cases h2
    · cases step_functional h2 exStep2
      refine ⟨?_, fun _ _ => trivial⟩
      simp [exS3, Bad, Quirk]

/-- `m0.T()[1] += v2; v2 = v0; Vector<> v3(m0 * v2);` runs, and leaves `m0 = [1 7 2; 0 9 1]`,
`v2 = [1,2,3]`, `v3 = [21,21]`. -/
example : ∃ ρ', execP exRho [exS1, exS2, exS3] = .ok ρ' ∧ EnvRep ρ' exEnv3 :=
  c66_complete exRep _ exAvoids (.cons exStep1 (.cons exStep2 (.cons exStep3 .nil)))


/-- the assignment `v0.slice(2,1) = v1`: a 1-vector is assigned a 3-vector; it compiles, and the
run-time check stops it. -/
example : execP exRho [.asg (.sliceV (.varV 0) 2 1) (.eqV (.varV 1))] = .abort := rfl

/-- `m0 = Identity`: a 2×3 matrix; stopped by the run-time check. -/
example : execP exRho [.asg (.varM 0) (.identM (.lit 1))] = .abort := rfl

/-- an environment with a square matrix -/
def exSq : SEnv ℚ := ⟨fun _ => none, fun i => match i with
  | 0 => some ((.dyn, .dyn), .m !![(1:ℚ), 2; 3, 4])
  | _ => none⟩
def exSqRho : CEnv ℚ := ⟨fun _ => none, fun i => match i with
  | 0 => some (mkM .dyn .dyn !![(1:ℚ), 2; 3, 4])
  | _ => none⟩

theorem exSqRep : EnvRep exSqRho exSq where
  v := fun _ => Or.inl ⟨rfl, rfl⟩
  m := fun i => match i with
    | 0 => Or.inr ⟨_, .dyn, .dyn, 2, 2, _, rfl, rfl, rfl, rfl,
        mkM_rep (R := .dyn) (C := .dyn) (r := 2) (c := 2) trivial trivial _⟩
    | _+1 => Or.inl ⟨rfl, rfl⟩

/-- The restriction on overlapping assignments is real: `m = m.T()` compiles and runs, but turns
`[1 2; 3 4]` into `[1 3; 3 4]` instead of `[1 3; 2 4]`. -/
theorem c66_overlap_wrong :
    Steps exSq [.asg (.varM 0) (.eqM (.transp (.varM 0)))] (exSq.setM 0 (.dyn, .dyn) (.m !![(1:ℚ), 3; 2, 4])) ∧
    ∃ ρ', execP exSqRho [.asg (.varM 0) (.eqM (.transp (.varM 0)))] = .ok ρ' ∧
      ρ'.read (.m 0) (1, 0) = .ok 3 := by
  refine ⟨.cons ?_ .nil, _, rfl, rfl⟩
  have hL : Loc exSq (.varM 0) (.m 0) (.m (fun (p : Fin 2) (q : Fin 2) => ((p : Nat), (q : Nat)))) :=
    .varM rfl
  refine .asg (y := .m !![(1:ℚ), 3; 2, 4]) id hL ?_ ?_
  · have : RDen exSq (.varM 0) (.eqM (.transp (.varM 0))) _ := .eqM (.transp (.varM rfl))
    convert this using 2
    ext i j
    fin_cases i <;> fin_cases j <;> rfl
  · refine ⟨.m, fun r' => ?_, fun p x ha => ?_, fun r' p hn => ?_⟩
    · rcases r' with i | i
      · rfl
      · rcases i with _ | i <;> rfl
    · cases ha with
      | m _ _ i j => fin_cases i <;> fin_cases j <;> rfl
    · rcases r' with i | i
      · rfl
      · rcases i with _ | i
        · have hn := hn rfl
          simp only [SEnv.cell, SEnv.setM, exSq, if_true]
          split_ifs with h
          · exact (hn _ (At.m (fun (p : Fin 2) (q : Fin 2) => ((p : Nat), (q : Nat))) _
              ⟨p.1, h.1⟩ ⟨p.2, h.2⟩)).elim
          · rfl
        · rfl

/-- A `Vector<Resizable>` assigned a slice of itself reads storage it has given up: `v2 = v2.slice(1,1)`
resizes `v2` to one element and then reads element 1. -/
theorem c66_resize_self_wrong :
    (∃ σ', Steps exEnv [.asg (.varV 2) (.eqV (.sliceV (.varV 2) 1 1))] σ') ∧
    execP exRho [.asg (.varV 2) (.eqV (.sliceV (.varV 2) 1 1))] = .ub := by
  refine ⟨⟨_, .cons (.resize (x := .v ![(7:ℚ), 8]) rfl
    (.sliceV (s := 1) (l := 1) (.varV rfl) rfl rfl (by norm_num)) (by norm_num)) .nil⟩, rfl⟩

end TooN.Expr
