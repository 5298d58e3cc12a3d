import Verif.Model.Prog
import Verif.Props.Expr
/-!
# Helper lemmas for C66 (straight-line programs)
-/
set_option linter.unusedSectionVars false
set_option linter.unusedSimpArgs false
namespace TooN.Expr
open Matrix

variable {K : Type}

/-! ## Loops -/

theorem forO_add {σ : Type _} (a b : Nat) (f : Nat → σ → Outcome σ) (s : σ) :
    forO (a + b) f s = (forO a f s).bind (forO b (fun k => f (a + k))) := by
  induction b with
  | zero =>
    show forO a f s = _
    cases forO a f s <;> rfl
  | succ b ih =>
    show (forO (a + b) f s).bind (f (a + b)) = _
    rw [ih]
    cases forO a f s <;> rfl

theorem forO_congr {σ : Type _} (n : Nat) (f g : Nat → σ → Outcome σ) (s : σ)
    (h : ∀ k t, k < n → f k t = g k t) : forO n f s = forO n g s := by
  induction n with
  | zero => rfl
  | succ n ih =>
    rw [forO_succ, forO_succ, ih (fun k t hk => h k t (by omega))]
    cases forO n g s with
    | ok t => exact h n t (by omega)
    | abort => rfl
    | ub => rfl

/-- two nested loops are one -/
theorem forO_nested {σ : Type _} (r c : Nat) (body : Nat → Nat → σ → Outcome σ) (s : σ) :
    forO r (fun i s => forO c (fun j s => body i j s) s) s =
      forO (r * c) (fun k s => body (k / c) (k % c) s) s := by
  induction r with
  | zero => simp [forO]
  | succ r ih =>
    rw [forO_succ, ih, Nat.succ_mul, forO_add]
    cases forO (r * c) (fun k s => body (k / c) (k % c) s) s with
    | ok t =>
      refine forO_congr c _ _ t fun k u hk => ?_
      have h1 : (r * c + k) / c = r := by
        rw [Nat.mul_comm, Nat.mul_add_div (by omega), Nat.div_eq_of_lt hk, Nat.add_zero]
      have h2 : (r * c + k) % c = k := by
        rw [Nat.mul_comm, Nat.mul_add_mod, Nat.mod_eq_of_lt hk]
      rw [h1, h2]
    | abort => rfl
    | ub => rfl

/-! ## Overwriting cells -/

/-- the state with some cells of the variable `r` overwritten -/
def CEnv.over (ρ : CEnv K) (r : Root) (g : Nat × Nat → Option K) : CEnv K :=
  match r with
  | .v i => ⟨fun j => if j = i then (ρ.v j).map (fun b => VB.mk b.S b.n fun a => (g (a, 0)).or (b.cell a))
      else ρ.v j, ρ.m⟩
  | .m i => ⟨ρ.v, fun j => if j = i then
      (ρ.m j).map (fun b => MB.mk b.R b.C b.r b.c fun a a' => (g (a, a')).or (b.cell a a')) else ρ.m j⟩

/-- the cell exists -/
def CEnv.InB (ρ : CEnv K) : Root → Nat × Nat → Prop
  | .v i, p => ∃ b, ρ.v i = some b ∧ p.1 < b.n ∧ p.2 = 0
  | .m i, p => ∃ b, ρ.m i = some b ∧ p.1 < b.r ∧ p.2 < b.c

theorem over_none (ρ : CEnv K) (r : Root) : ρ.over r (fun _ => none) = ρ := by
  obtain ⟨V, M⟩ := ρ
  cases r with
  | v i =>
    simp only [CEnv.over, Option.none_or, CEnv.mk.injEq, and_true]
    funext j
    split
    · cases V j <;> rfl
    · rfl
  | m i =>
    simp only [CEnv.over, Option.none_or, CEnv.mk.injEq, true_and]
    funext j
    split
    · cases M j <;> rfl
    · rfl

theorem over_over (ρ : CEnv K) (r : Root) (g g' : Nat × Nat → Option K) :
    (ρ.over r g).over r g' = ρ.over r (fun p => (g' p).or (g p)) := by
  cases r with
  | v i =>
    simp only [CEnv.over, CEnv.mk.injEq, and_true]
    funext j
    split
    · cases ρ.v j <;> simp [Option.or_assoc]
    · rfl
  | m i =>
    simp only [CEnv.over, CEnv.mk.injEq, true_and]
    funext j
    split
    · cases ρ.m j <;> simp [Option.or_assoc]
    · rfl

theorem over_InB (ρ : CEnv K) (r r' : Root) (g : Nat × Nat → Option K) (p : Nat × Nat) :
    (ρ.over r g).InB r' p ↔ ρ.InB r' p := by
  cases r with
  | v i => cases r' with
    | v j =>
      simp only [CEnv.InB, CEnv.over]
      by_cases h : j = i
      · simp [h]
      · simp [h]
    | m j => rfl
  | m i => cases r' with
    | v j => rfl
    | m j =>
      simp only [CEnv.InB, CEnv.over]
      by_cases h : j = i
      · simp [h]
      · simp [h]

theorem over_types (ρ : CEnv K) (r : Root) (g : Nat × Nat → Option K) :
    (ρ.over r g).types = ρ.types := by
  cases r with
  | v i =>
    simp only [CEnv.over, CEnv.types, TEnv.mk.injEq, and_true]
    funext j
    split
    · cases ρ.v j <;> rfl
    · rfl
  | m i =>
    simp only [CEnv.over, CEnv.types, TEnv.mk.injEq, true_and]
    funext j
    split
    · cases ρ.m j <;> rfl
    · rfl

theorem read_over_ne (ρ : CEnv K) (r r' : Root) (g : Nat × Nat → Option K) (p : Nat × Nat)
    (h : r' = r → g p = none) : (ρ.over r g).read r' p = ρ.read r' p := by
  cases r with
  | v i => cases r' with
    | v j =>
      simp only [CEnv.read, CEnv.over]
      by_cases hj : j = i
      · subst hj
        have h := h rfl
        rw [if_pos rfl]
        cases ρ.v j with
        | none => rfl
        | some b =>
          simp only [Option.map_some]
          by_cases h0 : p.2 = 0
          · have : (p.1, 0) = p := by rw [← h0]
            simp only [h0, VB.get, this, h, Option.none_or]
          · simp only [h0, if_false]
      · rw [if_neg hj]
    | m j => rfl
  | m i => cases r' with
    | v j => rfl
    | m j =>
      simp only [CEnv.read, CEnv.over]
      by_cases hj : j = i
      · subst hj
        have h := h rfl
        rw [if_pos rfl]
        cases ρ.m j with
        | none => rfl
        | some b => simp only [Option.map_some, MB.get, h, Option.none_or]
      · rw [if_neg hj]

theorem write_ok (ρ : CEnv K) (r : Root) (p : Nat × Nat) (x : K) (h : ρ.InB r p) :
    ρ.write r p x = .ok (ρ.over r (fun q => if q = p then some x else none)) := by
  cases r with
  | v i =>
    obtain ⟨b, h1, h2, h3⟩ := h
    simp only [CEnv.write, h1, h3, if_true, VB.set, h2, Outcome.bind_ok, CEnv.over]
    congr 2
    funext j
    by_cases hj : j = i
    · subst hj
      rw [if_pos rfl, if_pos rfl, h1, Option.map_some]
      congr 2
      funext a
      by_cases ha : a = p.1
      · subst ha
        rw [if_pos rfl, if_pos (by rw [← h3])]; rfl
      · rw [if_neg ha, if_neg (fun e => ha (by rw [← e]))]; rfl
    · rw [if_neg hj, if_neg hj]
  | m i =>
    obtain ⟨b, h1, h2, h3⟩ := h
    simp only [CEnv.write, h1, MB.set, h2, h3, and_self, if_true, Outcome.bind_ok, CEnv.over]
    congr 2
    funext j
    by_cases hj : j = i
    · subst hj
      rw [if_pos rfl, if_pos rfl, h1, Option.map_some]
      congr 2
      funext a a'
      by_cases ha : a = p.1 ∧ a' = p.2
      · rw [if_pos ha, if_pos (by rw [ha.1, ha.2])]; rfl
      · rw [if_neg ha, if_neg (fun e => ha (by rw [← e]; exact ⟨rfl, rfl⟩))]; rfl
    · rw [if_neg hj, if_neg hj]

/-- the cells written by the first `k` rounds of a loop -/
def acc (dst : Nat → Nat × Nat) (y : Nat → K) : Nat → Nat × Nat → Option K
  | 0 => fun _ => none
  | k+1 => fun p => if p = dst k then some (y k) else acc dst y k p

theorem acc_none (dst : Nat → Nat × Nat) (y : Nat → K) (k : Nat) (p : Nat × Nat)
    (h : ∀ i, i < k → dst i ≠ p) : acc dst y k p = none := by
  induction k with
  | zero => rfl
  | succ k ih =>
    show (if p = dst k then some (y k) else acc dst y k p) = none
    rw [if_neg (fun e => h k (by omega) e.symm), ih (fun i hi => h i (by omega))]

theorem acc_some (dst : Nat → Nat × Nat) (y : Nat → K) (k : Nat)
    (hinj : ∀ i j, i < k → j < k → dst i = dst j → i = j) (i : Nat) (hi : i < k) :
    acc dst y k (dst i) = some (y i) := by
  induction k with
  | zero => omega
  | succ k ih =>
    show (if dst i = dst k then some (y k) else acc dst y k (dst i)) = _
    by_cases h : dst i = dst k
    · rw [if_pos h, hinj i k hi (by omega) h]
    · rw [if_neg h]
      have : i ≠ k := fun e => h (by rw [e])
      exact ih (fun a b ha hb => hinj a b (by omega) (by omega)) (by omega)

theorem loop_ok (ρ : CEnv K) (r : Root) (n : Nat) (dst : Nat → Nat × Nat) (y : Nat → K)
    (val : CEnv K → Nat → Outcome K) (hb : ∀ k, k < n → ρ.InB r (dst k))
    (hv : ∀ k, k < n → val (ρ.over r (acc dst y k)) k = .ok (y k)) :
    forO n (fun k ρ => (val ρ k).bind fun x => ρ.write r (dst k) x) ρ =
      .ok (ρ.over r (acc dst y n)) := by
  induction n with
  | zero => show Outcome.ok ρ = .ok (ρ.over r (fun _ => none)); rw [over_none]
  | succ n ih =>
    rw [forO_succ, ih (fun k hk => hb k (by omega)) (fun k hk => hv k (by omega)), Outcome.bind_ok,
      hv n (by omega), Outcome.bind_ok, write_ok _ _ _ _ ((over_InB _ _ _ _ _).2 (hb n (by omega))),
      over_over]
    congr 2
    funext p
    show _ = (if p = dst n then some (y n) else acc dst y n p)
    by_cases h : p = dst n
    · simp [h]
    · simp [h]

/-! ## The same in the mathematical environment -/

def SEnv.over (σ : SEnv K) (r : Root) (g : Nat × Nat → Option K) : SEnv K :=
  match r with
  | .v i => ⟨fun j => if j = i then (match σ.v j with
      | some (S, .v x) => some (S, .v fun p => (g (p, 0)).getD (x p))
      | none => none) else σ.v j, σ.m⟩
  | .m i => ⟨σ.v, fun j => if j = i then (match σ.m j with
      | some (S, .m X) => some (S, .m fun p q => (g (p, q)).getD (X p q))
      | none => none) else σ.m j⟩

theorem sover_shape (σ : SEnv K) (r r' : Root) (g : Nat × Nat → Option K) :
    (σ.over r g).shape r' = σ.shape r' := by
  cases r with
  | v i => cases r' with
    | v j =>
      simp only [SEnv.shape, SEnv.over]
      by_cases h : j = i
      · rw [if_pos h]
        rcases σ.v j with _ | ⟨S, x⟩
        · rfl
        · cases x; rfl
      · rw [if_neg h]
    | m j => rfl
  | m i => cases r' with
    | v j => rfl
    | m j =>
      simp only [SEnv.shape, SEnv.over]
      by_cases h : j = i
      · rw [if_pos h]
        rcases σ.m j with _ | ⟨S, x⟩
        · rfl
        · cases x; rfl
      · rw [if_neg h]

theorem sover_cell_ne (σ : SEnv K) (r r' : Root) (g : Nat × Nat → Option K) (p : Nat × Nat)
    (h : r' = r → g p = none) : (σ.over r g).cell r' p = σ.cell r' p := by
  cases r with
  | v i => cases r' with
    | v j =>
      simp only [SEnv.cell, SEnv.over]
      by_cases hj : j = i
      · subst hj
        have h := h rfl
        rw [if_pos rfl]
        rcases σ.v j with _ | ⟨S, x⟩
        · rfl
        · cases x with
          | v x =>
            dsimp only
            split
            · rename_i hp
              have : (p.1, 0) = p := by rw [← hp.2]
              rw [this, h]; rfl
            · rfl
      · rw [if_neg hj]
    | m j => rfl
  | m i => cases r' with
    | v j => rfl
    | m j =>
      simp only [SEnv.cell, SEnv.over]
      by_cases hj : j = i
      · subst hj
        have h := h rfl
        rw [if_pos rfl]
        rcases σ.m j with _ | ⟨S, x⟩
        · rfl
        · cases x with
          | m x =>
            dsimp only
            split
            · rw [h]; rfl
            · rfl
      · rw [if_neg hj]

theorem sover_cell (σ : SEnv K) (r : Root) (g : Nat × Nat → Option K) (p : Nat × Nat) (x : K)
    (hg : g p = some x) (hc : σ.cell r p ≠ none) : (σ.over r g).cell r p = some x := by
  cases r with
  | v i =>
    simp only [SEnv.cell, SEnv.over, if_true] at *
    revert hc
    rcases σ.v i with _ | ⟨S, y⟩ <;> intro hc
    · exact absurd rfl hc
    · cases y with
      | v y =>
        dsimp only at *
        split at hc
        · rename_i hp
          rw [dif_pos hp]
          have : (p.1, 0) = p := by rw [← hp.2]
          rw [this, hg]; rfl
        · exact absurd rfl hc
  | m i =>
    simp only [SEnv.cell, SEnv.over, if_true] at *
    revert hc
    rcases σ.m i with _ | ⟨S, y⟩ <;> intro hc
    · exact absurd rfl hc
    · cases y with
      | m y =>
        dsimp only at *
        split at hc
        · rename_i hp
          rw [dif_pos hp, hg]; rfl
        · exact absurd rfl hc

/-- an environment is determined by shapes and cells -/
theorem senv_ext {σ σ' : SEnv K} (hs : ∀ r, σ.shape r = σ'.shape r)
    (hc : ∀ r p, σ.cell r p = σ'.cell r p) : σ = σ' := by
  obtain ⟨V, M⟩ := σ
  obtain ⟨V', M'⟩ := σ'
  congr 1
  · funext i
    have h1 := hs (.v i)
    have h2 := hc (.v i)
    simp only [SEnv.shape, SEnv.cell] at h1 h2
    rcases hV : V i with _ | ⟨S, x⟩ <;> rcases hV' : V' i with _ | ⟨S', x'⟩
    · rfl
    · rw [hV, hV'] at h1; cases x'; cases h1
    · rw [hV, hV'] at h1; cases x; cases h1
    · rw [hV, hV'] at h1 h2
      cases x with
      | @v n x => cases x' with
        | @v n' x' =>
          dsimp only at h1 h2
          simp only [Option.some.injEq, Prod.mk.injEq] at h1
          obtain ⟨⟨h3, _⟩, h4, _⟩ := h1
          subst h3 h4
          congr 3
          funext k
          have := h2 (k, 0)
          simpa using this
  · funext i
    have h1 := hs (.m i)
    have h2 := hc (.m i)
    simp only [SEnv.shape, SEnv.cell] at h1 h2
    rcases hV : M i with _ | ⟨S, x⟩ <;> rcases hV' : M' i with _ | ⟨S', x'⟩
    · rfl
    · rw [hV, hV'] at h1; cases x'; cases h1
    · rw [hV, hV'] at h1; cases x; cases h1
    · rw [hV, hV'] at h1 h2
      cases x with
      | @m n c x => cases x' with
        | @m n' c' x' =>
          dsimp only at h1 h2
          simp only [Option.some.injEq, Prod.mk.injEq] at h1
          obtain ⟨h3, h4, h5⟩ := h1
          subst h3 h4 h5
          congr 3
          funext k l
          have := h2 (k, l)
          simpa using this

variable [Field K]

theorem over_rep {ρ : CEnv K} {σ : SEnv K} (h : EnvRep ρ σ) (r : Root) (g : Nat × Nat → Option K) :
    EnvRep (ρ.over r g) (σ.over r g) := by
  cases r with
  | v i =>
    refine ⟨fun j => ?_, h.m⟩
    rcases h.v j with ⟨h1, h2⟩ | ⟨b, S, n, x, h1, h2, h3, h4⟩
    · left
      simp only [CEnv.over, SEnv.over, h1, h2, Option.map_none, ite_self, and_self]
    · right
      by_cases hj : j = i
      · subst hj
        refine ⟨{ b with cell := fun a => (g (a, 0)).or (b.cell a) }, S, n,
          fun p => (g (p, 0)).getD (x p), ?_, ?_, h3, h4.1, h4.2.1, fun k => ?_⟩
        · simp only [CEnv.over, h1, if_true, Option.map_some]
        · simp only [SEnv.over, h2, if_true]
        · show (g (k, 0)).or (b.cell k) = some ((g (k, 0)).getD (x k))
          rw [h4.2.2 k]
          cases g (k, 0) <;> rfl
      · exact ⟨b, S, n, x, by simp only [CEnv.over, hj, if_false, h1],
          by simp only [SEnv.over, hj, if_false, h2], h3, h4⟩
  | m i =>
    refine ⟨h.v, fun j => ?_⟩
    rcases h.m j with ⟨h1, h2⟩ | ⟨b, S, S', n, c, x, h1, h2, h3, h3', h4⟩
    · left
      simp only [CEnv.over, SEnv.over, h1, h2, Option.map_none, ite_self, and_self]
    · right
      by_cases hj : j = i
      · subst hj
        refine ⟨{ b with cell := fun a a' => (g (a, a')).or (b.cell a a') }, S, S', n, c,
          fun p q => (g (p, q)).getD (x p q), ?_, ?_, h3, h3', h4.1, h4.2.1, h4.2.2.1, h4.2.2.2.1,
          fun k l => ?_⟩
        · simp only [CEnv.over, h1, if_true, Option.map_some]
        · simp only [SEnv.over, h2, if_true]
        · show (g (k, l)).or (b.cell k l) = some ((g (k, l)).getD (x k l))
          rw [h4.2.2.2.2 k l]
          cases g (k, l) <;> rfl
      · exact ⟨b, S, S', n, c, x, by simp only [CEnv.over, hj, if_false, h1],
          by simp only [SEnv.over, hj, if_false, h2], h3, h3', h4⟩

/-- existing cells hold their values -/
theorem read_cell {ρ : CEnv K} {σ : SEnv K} (h : EnvRep ρ σ) (r : Root) (p : Nat × Nat)
    (hb : ρ.InB r p) : ∃ x, ρ.read r p = .ok x ∧ σ.cell r p = some x := by
  cases r with
  | v i =>
    obtain ⟨b, h1, h2, h3⟩ := hb
    rcases h.v i with ⟨k1, k2⟩ | ⟨b', S, n, x, k1, k2, k3, k4⟩
    · rw [k1] at h1; cases h1
    · rw [k1] at h1
      obtain rfl := Option.some.inj h1
      rw [k4.2.1] at h2
      refine ⟨x ⟨p.1, h2⟩, ?_, ?_⟩
      · simp only [CEnv.read, k1, h3, if_true]
        rw [k4.get 0 p.1 h2]; simp [extV, h2]
      · simp only [SEnv.cell, k2]
        rw [dif_pos ⟨h2, h3⟩]
  | m i =>
    obtain ⟨b, h1, h2, h3⟩ := hb
    rcases h.m i with ⟨k1, k2⟩ | ⟨b', S, S', n, c, x, k1, k2, k3, k3', k4⟩
    · rw [k1] at h1; cases h1
    · rw [k1] at h1
      obtain rfl := Option.some.inj h1
      rw [k4.2.2.1] at h2
      rw [k4.2.2.2.1] at h3
      refine ⟨x ⟨p.1, h2⟩ ⟨p.2, h3⟩, ?_, ?_⟩
      · simp only [CEnv.read, k1]
        rw [k4.get 0 p.1 p.2 h2 h3]; simp [extM, h2, h3]
      · simp only [SEnv.cell, k2]
        rw [dif_pos ⟨h2, h3⟩]

end TooN.Expr
