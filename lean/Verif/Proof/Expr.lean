import Verif.Model.Expr
import Verif.Props.Checks
import Mathlib.Tactic
/-! Helper lemmas for C65 (expressions). -/
set_option linter.unusedSectionVars false
set_option linter.unusedSimpArgs false
namespace TooN.Expr
open Matrix
open TooN.Checks (sizeMismatch sizer isStatic runtimeSize sizer1 simpleSizer)

variable {K : Type}

/-- template size `S` and run-time size `n` fit together -/
def Agrees (S : Int) (n : Nat) : Prop :=
  S = Checks.Dynamic ∨ (S = Checks.Resizable ∧ n ≠ 0) ∨ (0 < S ∧ S = n)
def AgreesM (S : Int) (n : Nat) : Prop := S = Checks.Dynamic ∨ (0 < S ∧ S = n)

theorem AgreesM.agrees {S : Int} {n : Nat} (h : AgreesM S n) : Agrees S n := by
  rcases h with h | h
  · exact Or.inl h
  · exact Or.inr (Or.inr h)

theorem AgreesM.ne {S : Int} {n : Nat} (h : AgreesM S n) : S ≠ Checks.Resizable := by
  unfold AgreesM Checks.Dynamic at h; unfold Checks.Resizable; omega

theorem Agrees.toM {S : Int} {n : Nat} (h : Agrees S n) (h' : S ≠ Checks.Resizable) : AgreesM S n := by
  rcases h with h | h | h
  · exact Or.inl h
  · exact absurd h.1 h'
  · exact Or.inr h

theorem Agrees.legal {S : Int} {n : Nat} (h : Agrees S n) : Checks.LegalSize S := by
  rcases h with h | h | h
  · exact Or.inl h
  · exact Or.inr (Or.inl h.1)
  · exact Or.inr (Or.inr h.1)

theorem Agrees.runtime {S : Int} {n : Nat} (h : Agrees S n) : runtimeSize S n = n := by
  unfold Agrees Checks.Dynamic Checks.Resizable at h
  unfold runtimeSize isStatic Checks.Dynamic Checks.Resizable
  rcases h with h | h | h
  · simp [h]
  · simp [h.1]
  · simp only [bne_iff_ne, ne_eq, Bool.and_eq_true]
    rw [if_pos (by omega)]; exact h.2

theorem test_eq {S1 S2 : Int} {n1 n2 : Nat} (h1 : Agrees S1 n1) (h2 : Agrees S2 n2) :
    test S1 S2 n1 n2 = if n1 = n2 then .ok () else .abort := by
  have h := Checks.c05_size_mismatch S1 S2 n1 n2 h1.legal h2.legal
  rw [h1.runtime, h2.runtime] at h
  unfold test
  rw [h]
  by_cases e : n1 = n2
  · rw [if_pos (by exact_mod_cast e), if_pos e]
  · rw [if_neg (by exact_mod_cast e), if_neg e]
    split_ifs <;> rfl

theorem testC_of {S1 S2 : Int} {n : Nat} (h1 : Agrees S1 n) (h2 : Agrees S2 n) :
    testC S1 S2 = true := by
  unfold Agrees Checks.Dynamic Checks.Resizable at h1 h2
  unfold testC Checks.sizeMismatch Checks.sizeMismatch_ Checks.Dynamic Checks.Resizable
  by_cases a1 : S1 = -1 ∨ S1 = -0x7fffffff <;> by_cases a2 : S2 = -1 ∨ S2 = -0x7fffffff
  · rw [if_pos a1, if_pos a2]; simp
  · rw [if_pos a1, if_neg a2]
    have : ¬ S2 = -1 := by omega
    simp [this]
  · rw [if_neg a1, if_pos a2]
    have : ¬ S1 = -1 := by omega
    simp [this]
  · rw [if_neg a1, if_neg a2]
    have e : S1 = S2 := by omega
    have : ¬ S2 = -1 := by omega
    simp [e, this]

theorem sizer_agrees {S1 S2 : Int} {n : Nat} (h1 : Agrees S1 n) (h2 : Agrees S2 n) :
    AgreesM (sizer S1 S2) n := by
  unfold Agrees Checks.Dynamic Checks.Resizable at h1 h2
  unfold AgreesM sizer sizer1 simpleSizer isStatic Checks.Dynamic Checks.Resizable
  simp only [bne_iff_ne, ne_eq, Bool.and_eq_true]
  split_ifs <;> omega

theorem allocV_eq {S : Int} {n : Nat} (h : Agrees S n) :
    (allocV S n : Outcome (VB K)) = .ok ⟨S, n, fun _ => none⟩ := by
  unfold allocV
  rw [if_neg, h.runtime]
  · rfl
  · unfold Agrees Checks.Dynamic Checks.Resizable at h; unfold Checks.Resizable; omega

theorem allocM_eq {R C : Int} {r c : Nat} (h : AgreesM R r) (h' : AgreesM C c) :
    (allocM R C r c : Outcome (MB K)) = .ok ⟨R, C, r, c, fun _ _ => none⟩ := by
  unfold allocM
  rw [h.agrees.runtime, h'.agrees.runtime]
  rfl

/-! ### loops -/

theorem forO_succ {σ : Type _} (n : Nat) (f : Nat → σ → Outcome σ) (s : σ) :
    forO (n+1) f s = (forO n f s).bind (f n) := rfl

theorem forO_inv {σ : Type _} (P : Nat → σ → Prop) (n : Nat) (f : Nat → σ → Outcome σ) (s : σ)
    (h0 : P 0 s) (step : ∀ i t, i < n → P i t → ∃ t', f i t = .ok t' ∧ P (i+1) t') :
    ∃ t, forO n f s = .ok t ∧ P n t := by
  induction n with
  | zero => exact ⟨s, rfl, h0⟩
  | succ n ih =>
    obtain ⟨t, ht, hp⟩ := ih (fun i t hi => step i t (Nat.lt_succ_of_lt hi))
    obtain ⟨t', ht', hp'⟩ := step n t (Nat.lt_succ_self n) hp
    exact ⟨t', by rw [forO_succ, ht]; exact ht', hp'⟩

theorem storeV_ok (n : Nat) (f : Nat → Outcome K) (g : Nat → K) (res : VB K)
    (hf : ∀ i, i < n → f i = .ok (g i)) (hn : n ≤ res.n) :
    storeV n f res = .ok ⟨res.S, res.n, fun i => if i < n then some (g i) else res.cell i⟩ := by
  have := forO_inv (fun k (t : VB K) => t = ⟨res.S, res.n, fun i => if i < k then some (g i) else res.cell i⟩)
    n (fun i res => (f i).bind fun x => res.set i x) res (by simp) (by
      rintro i t hi rfl
      refine ⟨_, ?_, rfl⟩
      rw [hf i hi, Outcome.bind_ok, VB.set, if_pos (by dsimp only; omega)]
      congr 2
      funext j
      by_cases h1 : j = i
      · subst h1; simp
      · rw [if_neg h1]
        dsimp only
        by_cases h2 : j < i
        · rw [if_pos h2, if_pos (by omega)]
        · rw [if_neg h2, if_neg (by omega)])
  obtain ⟨t, h1, h2⟩ := this
  rw [storeV, h1, h2]

theorem storeRow_ok (i c : Nat) (f : Nat → Outcome K) (g : Nat → K) (res : MB K)
    (hf : ∀ j, j < c → f j = .ok (g j)) (hc : c ≤ res.c) (hi : i < res.r) :
    forO c (fun j res => (f j).bind fun x => MB.set res i j x) res =
      .ok ⟨res.R, res.C, res.r, res.c,
        fun i' j => if i' = i ∧ j < c then some (g j) else res.cell i' j⟩ := by
  have := forO_inv (fun k (t : MB K) => t = ⟨res.R, res.C, res.r, res.c,
        fun i' j => if i' = i ∧ j < k then some (g j) else res.cell i' j⟩)
    c (fun j res => (f j).bind fun x => MB.set res i j x) res (by simp) (by
      rintro j t hj rfl
      refine ⟨_, ?_, rfl⟩
      rw [hf j hj, Outcome.bind_ok, MB.set, if_pos ⟨hi, by dsimp only; omega⟩]
      congr 2
      funext i' j'
      by_cases h1 : i' = i
      · subst h1
        by_cases h2 : j' = j
        · subst h2; simp
        · have e : (j' < j + 1) ↔ (j' < j) := by omega
          simp [h2, e]
      · simp [h1])
  obtain ⟨t, h1, h2⟩ := this
  rw [h1, h2]

theorem storeCol_ok (j r : Nat) (f : Nat → Outcome K) (g : Nat → K) (res : MB K)
    (hf : ∀ i, i < r → f i = .ok (g i)) (hr : r ≤ res.r) (hj : j < res.c) :
    forO r (fun i res => (f i).bind fun x => MB.set res i j x) res =
      .ok ⟨res.R, res.C, res.r, res.c,
        fun i j' => if j' = j ∧ i < r then some (g i) else res.cell i j'⟩ := by
  have := forO_inv (fun k (t : MB K) => t = ⟨res.R, res.C, res.r, res.c,
        fun i j' => if j' = j ∧ i < k then some (g i) else res.cell i j'⟩)
    r (fun i res => (f i).bind fun x => MB.set res i j x) res (by simp) (by
      rintro i t hi rfl
      refine ⟨_, ?_, rfl⟩
      rw [hf i hi, Outcome.bind_ok, MB.set, if_pos ⟨by dsimp only; omega, hj⟩]
      congr 2
      funext i' j'
      by_cases h1 : j' = j
      · subst h1
        by_cases h2 : i' = i
        · subst h2; simp
        · have e : (i' < i + 1) ↔ (i' < i) := by omega
          simp [h2, e]
      · simp [h1])
  obtain ⟨t, h1, h2⟩ := this
  rw [h1, h2]

/-- Row-by-row loops whose body stores row `i`. -/
theorem rows_ok (r c : Nat) (body : Nat → MB K → Outcome (MB K)) (g : Nat → Nat → K) (res : MB K)
    (hr : r ≤ res.r)
    (hbody : ∀ i (t : MB K), i < r → t.R = res.R → t.C = res.C → t.r = res.r → t.c = res.c →
      body i t = .ok ⟨t.R, t.C, t.r, t.c, fun i' j => if i' = i ∧ j < c then some (g i j) else t.cell i' j⟩) :
    forO r body res = .ok ⟨res.R, res.C, res.r, res.c,
        fun i j => if i < r ∧ j < c then some (g i j) else res.cell i j⟩ := by
  have := forO_inv (fun k (t : MB K) => t = ⟨res.R, res.C, res.r, res.c,
        fun i j => if i < k ∧ j < c then some (g i j) else res.cell i j⟩)
    r body res (by simp) (by
      intro i t hi ht
      refine ⟨_, hbody i t hi (by rw [ht]) (by rw [ht]) (by rw [ht]) (by rw [ht]), ?_⟩
      subst ht
      congr 1
      funext i' j'
      dsimp only
      by_cases h1 : i' = i
      · subst h1
        by_cases h2 : j' < c <;> simp [h2]
      · have e : (i' < i + 1) ↔ (i' < i) := by omega
        simp [h1, e])
  obtain ⟨t, h1, h2⟩ := this
  rw [h1, h2]

theorem cols_ok (r c : Nat) (body : Nat → MB K → Outcome (MB K)) (g : Nat → Nat → K) (res : MB K)
    (hc : c ≤ res.c)
    (hbody : ∀ j (t : MB K), j < c → t.R = res.R → t.C = res.C → t.r = res.r → t.c = res.c →
      body j t = .ok ⟨t.R, t.C, t.r, t.c, fun i j' => if j' = j ∧ i < r then some (g i j) else t.cell i j'⟩) :
    forO c body res = .ok ⟨res.R, res.C, res.r, res.c,
        fun i j => if i < r ∧ j < c then some (g i j) else res.cell i j⟩ := by
  have := forO_inv (fun k (t : MB K) => t = ⟨res.R, res.C, res.r, res.c,
        fun i j => if i < r ∧ j < k then some (g i j) else res.cell i j⟩)
    c body res (by simp) (by
      intro j t hj ht
      refine ⟨_, hbody j t hj (by rw [ht]) (by rw [ht]) (by rw [ht]) (by rw [ht]), ?_⟩
      subst ht
      congr 1
      funext i' j'
      dsimp only
      by_cases h1 : j' = j
      · subst h1
        by_cases h2 : i' < r <;> simp [h2]
      · have e : (j' < j + 1) ↔ (j' < j) := by omega
        simp [h1, e])
  obtain ⟨t, h1, h2⟩ := this
  rw [h1, h2]

theorem storeM_ok (r c : Nat) (f : Nat → Nat → Outcome K) (g : Nat → Nat → K) (res : MB K)
    (hf : ∀ i j, i < r → j < c → f i j = .ok (g i j)) (hr : r ≤ res.r) (hc : c ≤ res.c) :
    storeM r c f res = .ok ⟨res.R, res.C, res.r, res.c,
        fun i j => if i < r ∧ j < c then some (g i j) else res.cell i j⟩ := by
  unfold storeM
  refine rows_ok r c _ g res hr ?_
  intro i t hi h1 h2 h3 h4
  exact storeRow_ok i c (f i) (g i) t (fun j hj => hf i j hi hj) (by omega) (by omega)

/-! ### representation -/

/-- The object `b` holds the vector `x`. -/
def RepV (b : VB K) {n : Nat} (x : Fin n → K) : Prop :=
  Agrees b.S n ∧ b.n = n ∧ ∀ i : Fin n, b.cell i = some (x i)
/-- The object `b` holds the matrix `X`. -/
def RepM (b : MB K) {r c : Nat} (X : Matrix (Fin r) (Fin c) K) : Prop :=
  AgreesM b.R r ∧ AgreesM b.C c ∧ b.r = r ∧ b.c = c ∧ ∀ (i : Fin r) (j : Fin c), b.cell i j = some (X i j)

/-- values beyond the size, for stating loops over `Nat` -/
def extV {n : Nat} (d : K) (x : Fin n → K) (i : Nat) : K := if h : i < n then x ⟨i, h⟩ else d
def extM {r c : Nat} (d : K) (X : Matrix (Fin r) (Fin c) K) (i j : Nat) : K :=
  if h : i < r ∧ j < c then X ⟨i, h.1⟩ ⟨j, h.2⟩ else d

theorem extV_fin {n : Nat} (d : K) (x : Fin n → K) (i : Fin n) : extV d x i = x i := by
  simp [extV]
theorem extM_fin {r c : Nat} (d : K) (X : Matrix (Fin r) (Fin c) K) (i : Fin r) (j : Fin c) :
    extM d X i j = X i j := by simp [extM]

theorem RepV.get {b : VB K} {n : Nat} {x : Fin n → K} (h : RepV b x) (d : K) (i : Nat) (hi : i < n) :
    b.get i = .ok (extV d x i) := by
  obtain ⟨_, h2, h3⟩ := h
  unfold VB.get
  rw [if_pos (by omega), h3 ⟨i, hi⟩]
  simp [extV, hi]

theorem RepM.get {b : MB K} {r c : Nat} {X : Matrix (Fin r) (Fin c) K} (h : RepM b X) (d : K)
    (i j : Nat) (hi : i < r) (hj : j < c) : b.get i j = .ok (extM d X i j) := by
  obtain ⟨_, _, h2, h2', h3⟩ := h
  unfold MB.get
  rw [if_pos (by omega), h3 ⟨i, hi⟩ ⟨j, hj⟩]
  simp [extM, hi, hj]

theorem repV_mk {S : Int} {n : Nat} (h : Agrees S n) (cell : Nat → Option K) (x : Fin n → K)
    (hc : ∀ i : Fin n, cell i = some (x i)) : RepV ⟨S, n, cell⟩ x := ⟨h, rfl, hc⟩
theorem repM_mk {R C : Int} {r c : Nat} (h : AgreesM R r) (h' : AgreesM C c)
    (cell : Nat → Nat → Option K) (X : Matrix (Fin r) (Fin c) K)
    (hc : ∀ (i : Fin r) (j : Fin c), cell i j = some (X i j)) : RepM ⟨R, C, r, c, cell⟩ X := ⟨h, h', rfl, rfl, hc⟩

theorem assignV_ok {v w : VB K} {n : Nat} {x : Fin n → K} (d : K) (hv : Agrees v.S n) (hn : v.n = n)
    (hw : RepV w x) : ∃ b, assignV v w = .ok b ∧ b.S = v.S ∧ RepV b x := by
  obtain ⟨S, vn, cell⟩ := v
  dsimp only at hv hn
  subst hn
  have hw2 := hw.2.1
  have key : ∀ cell', storeV vn (fun i => w.get i) ⟨S, vn, cell'⟩ =
      .ok ⟨S, vn, fun i => if i < vn then some (extV d x i) else cell' i⟩ := fun cell' =>
    storeV_ok vn _ (extV d x) ⟨S, vn, cell'⟩ (fun i hi => hw.get d i hi) le_rfl
  unfold assignV tryResize
  dsimp only
  by_cases hS : S = Checks.Resizable
  · rw [if_pos hS]
    have h0 : vn ≠ 0 := by
      subst hS; unfold Agrees Checks.Dynamic Checks.Resizable at hv; omega
    rw [if_neg (by omega), Outcome.bind_ok]
    dsimp only
    rw [hw2, test_eq hv hw.1, if_pos rfl, Outcome.bind_ok, key]
    exact ⟨_, rfl, rfl, repV_mk hv _ _ (fun i => by simp [extV])⟩
  · rw [if_neg hS, Outcome.bind_ok]
    dsimp only
    rw [hw2, test_eq hv hw.1, if_pos rfl, Outcome.bind_ok, key]
    exact ⟨_, rfl, rfl, repV_mk hv _ _ (fun i => by simp [extV])⟩

theorem assignM_ok {v w : MB K} {r c : Nat} {X : Matrix (Fin r) (Fin c) K} (d : K)
    (hR : AgreesM v.R r) (hC : AgreesM v.C c) (hr : v.r = r) (hc : v.c = c) (hw : RepM w X) :
    ∃ b, assignM v w = .ok b ∧ b.R = v.R ∧ b.C = v.C ∧ RepM b X := by
  obtain ⟨R, C, vr, vc, cell⟩ := v
  dsimp only at hR hC hr hc
  subst hr hc
  unfold assignM
  dsimp only
  rw [hw.2.2.1, hw.2.2.2.1, test_eq hR.agrees hw.1.agrees, if_pos rfl, Outcome.bind_ok,
    test_eq hC.agrees hw.2.1.agrees, if_pos rfl, Outcome.bind_ok,
    storeM_ok vr vc _ (extM d X) _ (fun i j hi hj => hw.get d i j hi hj) le_rfl le_rfl]
  exact ⟨_, rfl, rfl, rfl, repM_mk hR hC _ _ (fun i j => by simp [extM])⟩

end TooN.Expr
