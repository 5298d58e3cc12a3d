import Verif.Proof.ThreadView
import Verif.Spec.ThreadFoot
/-!
# The access-by-access execution does what the statement does, within its footprint
-/
set_option linter.unusedSectionVars false
set_option linter.unusedSimpArgs false
namespace TooN.Expr
open TooN.Thread

variable {K : Type}

/-- `t` only reads: from `ρ` it returns `o`, reading within `R` -/
structure Pure {α : Type} (t : Th (varSys K) α) (ρ : CEnv K) (o : α) (R : Set MLoc) : Prop where
  run : t.run ρ = (ρ, o)
  rd : t.reads ρ ⊆ R
  wr : t.writes ρ = ∅

theorem Pure.ret {α : Type} (x : α) (ρ : CEnv K) (R : Set MLoc) :
    Pure (Th.ret x : Th (varSys K) α) ρ x R := ⟨rfl, fun _ h => h.elim, rfl⟩

theorem Pure.bindTh {α β : Type} {t : Th (varSys K) α} {ρ : CEnv K} {x : α} {R : Set MLoc}
    {f : α → Th (varSys K) β} {y : β} (h : Pure t ρ x R) (hf : Pure (f x) ρ y R) :
    Pure (t.bind f) ρ y R := by
  refine ⟨?_, ?_, ?_⟩
  · rw [Th.run_bind, h.run]; exact hf.run
  · rw [Th.reads_bind, h.run]; exact Set.union_subset h.rd hf.rd
  · rw [Th.writes_bind, h.run, h.wr]
    show ∅ ∪ _ = ∅
    rw [hf.wr]; exact Set.union_empty _

theorem Pure.bind {α β : Type} {t : T K α} {ρ : CEnv K} {x : Outcome α} {R : Set MLoc}
    {f : α → T K β} {g : α → Outcome β} (h : Pure t ρ x R) (hf : ∀ a, x = .ok a → Pure (f a) ρ (g a) R) :
    Pure (T.bind t f) ρ (x.bind g) R := by
  refine h.bindTh ?_
  cases x with
  | ok a => exact hf a rfl
  | abort => exact Pure.ret _ _ _
  | ub => exact Pure.ret _ _ _

theorem Pure.mono {α : Type} {t : Th (varSys K) α} {ρ : CEnv K} {x : α} {R R' : Set MLoc}
    (h : Pure t ρ x R) (hR : R ⊆ R') : Pure t ρ x R' := ⟨h.run, h.rd.trans hR, h.wr⟩

theorem loadT_pure (ρ : CEnv K) (r : Root) (p : Nat × Nat) {R : Set MLoc} (h1 : .shape r ∈ R)
    (h2 : .cell r p ∈ R) : Pure (loadT r p) ρ (ρ.read r p) R := by
  refine ⟨?_, ?_, ?_⟩
  · rw [read_eq]
    have e : ((varSys K).sem (.load r p) ρ).2 = ρ.cellOf r p := rfl
    show (ρ, _) = (ρ, _)
    rw [e]
    cases ρ.cellOf r p <;> rfl
  · rintro l (hl | hl)
    · rcases hl with rfl | hl
      · exact h1
      · cases hl; exact h2
    · exact hl.elim
  · exact Set.union_empty _

/-- `t` does to the variables what `o` says -/
structure Sim (t : T K Unit) (ρ : CEnv K) (o : Outcome (CEnv K)) (R W : Set MLoc) : Prop where
  out : (t.run ρ).2 = o.bind fun _ => .ok ()
  mem : ∀ ρ', o = .ok ρ' → (t.run ρ).1 = ρ'
  rd : t.reads ρ ⊆ R
  wr : t.writes ρ ⊆ W

theorem storeT_sim (ρ : CEnv K) (r : Root) (p : Nat × Nat) (x : K) {R W : Set MLoc}
    (h1 : .shape r ∈ R) (h2 : .cell r p ∈ W) : Sim (storeT r p x) ρ (ρ.write r p x) R W := by
  have hs : (storeT r p x).run ρ = (Acc.store r p x).sem ρ := rfl
  refine ⟨?_, ?_, ?_, ?_⟩
  · rw [hs]; simp only [Acc.sem]; cases ρ.write r p x <;> rfl
  · intro ρ' h; rw [hs]; simp only [Acc.sem, h]
  · rintro l (hl | hl)
    · cases hl; exact h1
    · exact hl.elim
  · rintro l (hl | hl)
    · cases hl; exact h2
    · exact hl.elim

theorem Sim.bindPure {α : Type} {t : T K α} {ρ : CEnv K} {x : Outcome α} {R W : Set MLoc}
    {f : α → T K Unit} {g : α → Outcome (CEnv K)} (h : Pure t ρ x R)
    (hf : ∀ a, x = .ok a → Sim (f a) ρ (g a) R W) : Sim (T.bind t f) ρ (x.bind g) R W := by
  unfold T.bind
  cases x with
  | ok a =>
    have := hf a rfl
    refine ⟨?_, ?_, ?_, ?_⟩
    · rw [Th.run_bind, h.run]; exact this.out
    · rw [Th.run_bind, h.run]; exact this.mem
    · rw [Th.reads_bind, h.run]; exact Set.union_subset h.rd this.rd
    · rw [Th.writes_bind, h.run, h.wr, Set.empty_union]; exact this.wr
  | abort =>
    refine ⟨?_, fun _ h => (by cases h), ?_, ?_⟩
    · rw [Th.run_bind, h.run]; rfl
    · rw [Th.reads_bind, h.run]; exact Set.union_subset h.rd (fun _ h => h.elim)
    · rw [Th.writes_bind, h.run, h.wr, Set.empty_union]; exact fun _ h => h.elim
  | ub =>
    refine ⟨?_, fun _ h => (by cases h), ?_, ?_⟩
    · rw [Th.run_bind, h.run]; rfl
    · rw [Th.reads_bind, h.run]; exact Set.union_subset h.rd (fun _ h => h.elim)
    · rw [Th.writes_bind, h.run, h.wr, Set.empty_union]; exact fun _ h => h.elim

theorem Sim.bind {t : T K Unit} {ρ : CEnv K} {o : Outcome (CEnv K)} {R W : Set MLoc}
    {f : Unit → T K Unit} {g : CEnv K → Outcome (CEnv K)} (h : Sim t ρ o R W)
    (hf : ∀ ρ', o = .ok ρ' → Sim (f ()) ρ' (g ρ') R W) : Sim (T.bind t f) ρ (o.bind g) R W := by
  unfold T.bind
  cases o with
  | ok ρ' =>
    have := hf ρ' rfl
    have e : t.run ρ = (ρ', .ok ()) := Prod.ext (h.mem _ rfl) h.out
    refine ⟨?_, ?_, ?_, ?_⟩
    · rw [Th.run_bind, e]; exact this.out
    · rw [Th.run_bind, e]; exact this.mem
    · rw [Th.reads_bind, e]; exact Set.union_subset h.rd this.rd
    · rw [Th.writes_bind, e]; exact Set.union_subset h.wr this.wr
  | abort =>
    have e : (t.run ρ).2 = .abort := h.out
    refine ⟨?_, fun _ h => (by cases h), ?_, ?_⟩
    · rw [Th.run_bind, e]; rfl
    · rw [Th.reads_bind, e]; exact Set.union_subset h.rd (fun _ h => h.elim)
    · rw [Th.writes_bind, e]; exact Set.union_subset h.wr (fun _ h => h.elim)
  | ub =>
    have e : (t.run ρ).2 = .ub := h.out
    refine ⟨?_, fun _ h => (by cases h), ?_, ?_⟩
    · rw [Th.run_bind, e]; rfl
    · rw [Th.reads_bind, e]; exact Set.union_subset h.rd (fun _ h => h.elim)
    · rw [Th.writes_bind, e]; exact Set.union_subset h.wr (fun _ h => h.elim)

theorem Sim.forT {n : Nat} {f : Nat → T K Unit} {g : Nat → CEnv K → Outcome (CEnv K)} {R W : Set MLoc}
    (h : ∀ k, k < n → ∀ ρ, Sim (f k) ρ (g k ρ) R W) (ρ : CEnv K) :
    Sim (Expr.forT n f) ρ (forO n g ρ) R W := by
  induction n with
  | zero => exact ⟨rfl, fun _ h => (by cases h; rfl), fun _ h => h.elim, fun _ h => h.elim⟩
  | succ n ih =>
    exact (ih fun k hk => h k (by omega)).bind fun ρ' _ => h n (by omega) ρ'

theorem Sim.mono {t : T K Unit} {ρ : CEnv K} {o : Outcome (CEnv K)} {R W R' W' : Set MLoc}
    (h : Sim t ρ o R W) (hR : R ⊆ R') (hW : W ⊆ W') : Sim t ρ o R' W' :=
  ⟨h.out, h.mem, h.rd.trans hR, h.wr.trans hW⟩

theorem loopVT_sim {l : VL} {val : Nat → T K K} {valM : CEnv K → Nat → Outcome K} {R W : Set MLoc}
    (hv : ∀ k, k < l.n → ∀ ρ, Pure (val k) ρ (valM ρ k) R) (h1 : .shape l.root ∈ R)
    (h2 : ∀ k, k < l.n → .cell l.root (l.cell k) ∈ W) (ρ : CEnv K) :
    Sim (loopVT l val) ρ (loopV l valM ρ) R W :=
  Sim.forT (fun k hk ρ => Sim.bindPure (hv k hk ρ) fun _ _ => storeT_sim _ _ _ _ h1 (h2 k hk)) ρ

theorem loopMT_sim {l : ML} {val : Nat → Nat → T K K} {valM : CEnv K → Nat → Nat → Outcome K}
    {R W : Set MLoc}
    (hv : ∀ i j, i < l.r → j < l.c → ∀ ρ, Pure (val i j) ρ (valM ρ i j) R) (h1 : .shape l.root ∈ R)
    (h2 : ∀ i j, i < l.r → j < l.c → .cell l.root (l.cell i j) ∈ W) (ρ : CEnv K) :
    Sim (loopMT l val) ρ (loopM l valM ρ) R W :=
  Sim.forT (fun i hi ρ => Sim.forT (fun j hj ρ => Sim.bindPure (hv i j hi hj ρ) fun _ _ =>
    storeT_sim _ _ _ _ h1 (h2 i j hi hj)) ρ) ρ

/-! ### Looking at the operands -/

theorem shapeOf_declare (σ : CEnv K) (r r' : Root) (o : Option Shp) (ρ : CEnv K) (ho : o = ρ.shapeOf r) :
    (σ.declare r o).shapeOf r' = if r' = r then o else σ.shapeOf r' := by
  subst ho
  cases r with
  | v i => cases r' with
    | v j =>
      by_cases h : j = i
      · subst h
        simp only [CEnv.declare, CEnv.shapeOf, Function.update_self, if_true]
        cases ρ.v j <;> rfl
      · simp [CEnv.declare, CEnv.shapeOf, Function.update_of_ne h, h]
    | m j => simp [CEnv.declare, CEnv.shapeOf]
  | m i => cases r' with
    | v j => simp [CEnv.declare, CEnv.shapeOf]
    | m j =>
      by_cases h : j = i
      · subst h
        simp only [CEnv.declare, CEnv.shapeOf, Function.update_self, if_true]
        cases ρ.m j <;> rfl
      · simp [CEnv.declare, CEnv.shapeOf, Function.update_of_ne h, h]

theorem tidy_declare {σ : CEnv K} (h : Tidy σ) (r : Root) (o : Option Shp) : Tidy (σ.declare r o) := by
  cases r with
  | v i =>
    refine ⟨fun j b hb k hk => ?_, h.m⟩
    by_cases hj : j = i
    · subst hj
      simp only [CEnv.declare, Function.update_self] at hb
      cases o with
      | none => cases hb
      | some s => cases hb; rfl
    · simp only [CEnv.declare, Function.update_of_ne hj] at hb
      exact h.v j b hb k hk
  | m i =>
    refine ⟨h.v, fun j b hb k l hk => ?_⟩
    by_cases hj : j = i
    · subst hj
      simp only [CEnv.declare, Function.update_self] at hb
      cases o with
      | none => cases hb
      | some s => cases hb; rfl
    · simp only [CEnv.declare, Function.update_of_ne hj] at hb
      exact h.m j b hb k l hk

theorem tidy_none : Tidy (CEnv.none : CEnv K) := ⟨fun _ _ h => (by cases h), fun _ _ h => (by cases h)⟩

theorem sizesT_pure (ρ : CEnv K) (rs : List Root) (σ : CEnv K) (hσ : Tidy σ) :
    ∃ σ', Pure (sizesT rs σ) ρ σ' {l | ∃ r ∈ rs, l = .shape r} ∧ Tidy σ' ∧
      (∀ r ∈ rs, σ'.shapeOf r = ρ.shapeOf r) ∧
      (∀ r, σ.shapeOf r = ρ.shapeOf r → σ'.shapeOf r = ρ.shapeOf r) := by
  induction rs generalizing σ with
  | nil => exact ⟨σ, Pure.ret _ _ _, hσ, fun _ h => (by simp at h), fun _ h => h⟩
  | cons r rs ih =>
    obtain ⟨σ', hp, ht, h1, h2⟩ := ih (σ.declare r (ρ.shapeOf r)) (tidy_declare hσ _ _)
    have hd := fun r' => shapeOf_declare σ r r' (ρ.shapeOf r) ρ rfl
    refine ⟨σ', ⟨hp.run, ?_, ?_⟩, ht, fun r' hr' => ?_, fun r' hr' => h2 r' ?_⟩
    · rintro l (hl | hl)
      · exact ⟨r, by simp, hl⟩
      · obtain ⟨r', h, h'⟩ := hp.rd hl
        exact ⟨r', List.mem_cons_of_mem _ h, h'⟩
    · show ∅ ∪ _ = ∅
      rw [Set.empty_union]; exact hp.wr
    · rcases List.mem_cons.1 hr' with rfl | h
      · exact h2 r' (by rw [hd, if_pos rfl])
      · exact h1 r' h
    · rw [hd]; split
      · rename_i h; rw [h]
      · exact hr'

theorem shapeOf_put (σ : CEnv K) (r r' : Root) (p : Nat × Nat) (o : Option K) :
    (σ.put r p o).shapeOf r' = σ.shapeOf r' := by
  cases r with
  | v i => cases r' with
    | v j =>
      by_cases h : j = i
      · subst h
        simp only [CEnv.put, CEnv.shapeOf, Function.update_self]
        cases σ.v j <;> rfl
      · simp [CEnv.put, CEnv.shapeOf, Function.update_of_ne h]
    | m j => rfl
  | m i => cases r' with
    | v j => rfl
    | m j =>
      by_cases h : j = i
      · subst h
        simp only [CEnv.put, CEnv.shapeOf, Function.update_self]
        cases σ.m j <;> rfl
      · simp [CEnv.put, CEnv.shapeOf, Function.update_of_ne h]

theorem cellOf_put (σ : CEnv K) (r : Root) (p : Nat × Nat) (o : Option K)
    (ho : ¬ InRange (σ.shapeOf r) p → o = none) (r' : Root) (p' : Nat × Nat) :
    (σ.put r p o).cellOf r' p' = if (r', p') = (r, p) then o else σ.cellOf r' p' := by
  cases r with
  | v i => cases r' with
    | v j =>
      by_cases h : j = i
      · subst h
        simp only [CEnv.put, CEnv.cellOf, Function.update_self, Prod.mk.injEq, true_and]
        cases hb : σ.v j with
        | none =>
          simp only [Option.map_none, Option.bind_none]
          rw [ho]
          · simp
          · rintro ⟨s, hs, _⟩; simp [CEnv.shapeOf, hb] at hs
        | some b =>
          simp only [Option.map_some, Option.bind_some]
          by_cases hp : p' = p
          · subst hp
            rw [if_pos rfl]
            by_cases hin : p'.1 < b.n ∧ p'.2 = 0
            · rw [if_pos hin, if_pos ⟨rfl, hin.2⟩]
            · rw [if_neg hin, ho]
              rintro ⟨s, hs, h1, h2⟩
              simp only [CEnv.shapeOf, hb, Option.map_some, Option.some.injEq] at hs
              subst hs
              exact hin ⟨h1, by change p'.2 < 1 at h2; omega⟩
          · rw [if_neg hp]
            split
            · rename_i h1
              rw [if_neg]
              rintro ⟨h2, h3⟩
              exact hp (Prod.ext h2 (h1.2.trans h3.symm))
            · rfl
      · simp [CEnv.put, CEnv.cellOf, Function.update_of_ne h, h]
    | m j => simp [CEnv.put, CEnv.cellOf]
  | m i => cases r' with
    | v j => simp [CEnv.put, CEnv.cellOf]
    | m j =>
      by_cases h : j = i
      · subst h
        simp only [CEnv.put, CEnv.cellOf, Function.update_self, Prod.mk.injEq, true_and]
        cases hb : σ.m j with
        | none =>
          simp only [Option.map_none, Option.bind_none]
          rw [ho]
          · simp
          · rintro ⟨s, hs, _⟩; simp [CEnv.shapeOf, hb] at hs
        | some b =>
          simp only [Option.map_some, Option.bind_some]
          by_cases hp : p' = p
          · subst hp
            rw [if_pos rfl]
            by_cases hin : p'.1 < b.r ∧ p'.2 < b.c
            · rw [if_pos hin, if_pos ⟨rfl, rfl⟩]
            · rw [if_neg hin, ho]
              rintro ⟨s, hs, h1, h2⟩
              simp only [CEnv.shapeOf, hb, Option.map_some, Option.some.injEq] at hs
              subst hs
              exact hin ⟨h1, h2⟩
          · rw [if_neg hp]
            split
            · rename_i h1
              rw [if_neg]
              rintro ⟨h2, h3⟩
              exact hp (Prod.ext h2 h3)
            · rfl
      · simp [CEnv.put, CEnv.cellOf, Function.update_of_ne h, h]

theorem tidy_put {σ : CEnv K} (h : Tidy σ) (r : Root) (p : Nat × Nat) (o : Option K)
    (ho : ¬ InRange (σ.shapeOf r) p → o = none) : Tidy (σ.put r p o) := by
  cases r with
  | v i =>
    refine ⟨fun j b hb k hk => ?_, h.m⟩
    by_cases hj : j = i
    · subst hj
      simp only [CEnv.put, Function.update_self] at hb
      cases hc : σ.v j with
      | none => rw [hc] at hb; cases hb
      | some c =>
        rw [hc] at hb; cases hb
        dsimp only at hk ⊢
        split
        · rename_i h1
          refine ho ?_
          rintro ⟨s, hs, h2, h3⟩
          simp only [CEnv.shapeOf, hc, Option.map_some, Option.some.injEq] at hs
          subst hs
          exact hk (h1.1 ▸ h2)
        · exact h.v j c hc k hk
    · simp only [CEnv.put, Function.update_of_ne hj] at hb
      exact h.v j b hb k hk
  | m i =>
    refine ⟨h.v, fun j b hb k l hk => ?_⟩
    by_cases hj : j = i
    · subst hj
      simp only [CEnv.put, Function.update_self] at hb
      cases hc : σ.m j with
      | none => rw [hc] at hb; cases hb
      | some c =>
        rw [hc] at hb; cases hb
        dsimp only at hk ⊢
        split
        · rename_i h1
          refine ho ?_
          rintro ⟨s, hs, h2, h3⟩
          simp only [CEnv.shapeOf, hc, Option.map_some, Option.some.injEq] at hs
          subst hs
          exact hk ⟨h1.1 ▸ h2, h1.2 ▸ h3⟩
        · exact h.m j c hc k l hk
    · simp only [CEnv.put, Function.update_of_ne hj] at hb
      exact h.m j b hb k l hk

theorem loadsT_pure (ρ : CEnv K) (cs : List (Root × (Nat × Nat))) (σ : CEnv K) (hσ : Tidy σ)
    (hs : ∀ c ∈ cs, σ.shapeOf c.1 = ρ.shapeOf c.1) :
    ∃ σ', Pure (loadsT cs σ) ρ σ'
        {l | ∃ c ∈ cs, l = .shape c.1 ∨ l = .cell c.1 c.2} ∧ Tidy σ' ∧
      (∀ r, σ'.shapeOf r = σ.shapeOf r) ∧
      (∀ c ∈ cs, σ'.cellOf c.1 c.2 = ρ.cellOf c.1 c.2) ∧
      (∀ r p, σ.cellOf r p = ρ.cellOf r p → σ'.cellOf r p = ρ.cellOf r p) := by
  induction cs generalizing σ with
  | nil => exact ⟨σ, Pure.ret _ _ _, hσ, fun _ => rfl, fun _ h => (by simp at h), fun _ _ h => h⟩
  | cons c cs ih =>
    have ho : ¬ InRange (σ.shapeOf c.1) c.2 → ρ.cellOf c.1 c.2 = none := by
      rw [hs c (by simp)]; exact cellOf_out ρ c.1 c.2
    obtain ⟨σ', hp, ht, h0, h1, h2⟩ := ih (σ.put c.1 c.2 (ρ.cellOf c.1 c.2)) (tidy_put hσ _ _ _ ho)
      (fun c' hc' => by rw [shapeOf_put]; exact hs c' (List.mem_cons_of_mem _ hc'))
    have hcell := cellOf_put σ c.1 c.2 (ρ.cellOf c.1 c.2) ho
    refine ⟨σ', ⟨hp.run, ?_, ?_⟩, ht, fun r => (h0 r).trans (shapeOf_put _ _ _ _ _), fun c' hc' => ?_,
      fun r p hr => h2 r p ?_⟩
    · rintro l (hl | hl)
      · exact ⟨c, by simp, hl⟩
      · obtain ⟨c', h, h'⟩ := hp.rd hl
        exact ⟨c', List.mem_cons_of_mem _ h, h'⟩
    · show ∅ ∪ _ = ∅
      rw [Set.empty_union]; exact hp.wr
    · rcases List.mem_cons.1 hc' with rfl | h
      · exact h2 _ _ (by rw [hcell, if_pos rfl])
      · exact h1 c' h
    · rw [hcell]; split
      · rename_i h; cases h; rfl
      · exact hr

theorem locT_pure (ρ : CEnv K) {k : Knd} (L : Ex K k) :
    Pure (locT L) ρ (locate ρ L) {l | ∃ r ∈ vars L, l = .shape r} := by
  obtain ⟨σ', hp, ht, h1, _⟩ := sizesT_pure ρ (vars L) .none tidy_none
  refine hp.bindTh ?_
  rw [← locate_congr (ρ := σ') L h1]
  exact Pure.ret _ _ _

variable [Zero K] [One K] [Add K] [Sub K] [Mul K] [Div K] [Neg K]

theorem evalT_pure {ρ : CEnv K} (hρ : Tidy ρ) {k : Knd} (e : Ex K k) :
    ∃ o, Pure (evalT e) ρ o (exprR ρ e) ∧ ORel CEq (run ρ e) o ∧ (isView e = false → run ρ e = o) := by
  obtain ⟨σ, hp, ht, h1, _⟩ := sizesT_pure ρ (vars e) .none tidy_none
  have hf : foot σ e = foot ρ e := foot_congr e h1
  obtain ⟨σ', hp', ht', h0', h1', _⟩ := loadsT_pure ρ (foot σ e) σ ht
    (fun c hc => h1 _ (foot_vars σ e c hc))
  have hfr := run_frame hρ ht' e (fun r hr => ((h0' r).trans (h1 r hr)).symm)
    (fun c hc => (h1' c (hf ▸ hc)).symm)
  refine ⟨run σ' e, ?_, hfr.1, hfr.2⟩
  refine (hp.mono fun l hl => .inl hl).bindTh ((hp'.mono ?_).bindTh (Pure.ret _ _ _))
  rintro l ⟨c, hc, hl | hl⟩
  · exact .inl ⟨c.1, foot_vars σ e c hc, hl⟩
  · exact .inr ⟨c, hf ▸ hc, hl⟩

theorem evalT_pure_s {ρ : CEnv K} (hρ : Tidy ρ) (e : Ex K .s) : Pure (evalT e) ρ (run ρ e) (exprR ρ e) := by
  obtain ⟨o, hp, h, _⟩ := evalT_pure hρ e
  have : run ρ e = o := by
    generalize run ρ e = x at h
    cases h with
    | ok h => rw [show _ = _ from h]
    | abort => rfl
    | ub => rfl
  rw [this]; exact hp

theorem srcVT_pure {ρ : CEnv K} (hρ : Tidy ρ) (e : Ex K .v) :
    Pure (srcVT e) ρ (srcV ρ e) (exprR ρ e) := by
  unfold srcVT srcV
  by_cases hv : isView e = true
  · rw [if_pos hv, if_pos hv]
    exact ((locT_pure ρ e).mono fun l h => .inl h).bind fun _ _ => Pure.ret _ _ _
  · rw [if_neg hv, if_neg hv]
    obtain ⟨o, hp, _, h⟩ := evalT_pure hρ e
    rw [h (by simpa using hv)]
    exact hp.bind fun _ _ => Pure.ret _ _ _
theorem srcMT_pure {ρ : CEnv K} (hρ : Tidy ρ) (e : Ex K .m) :
    Pure (srcMT e) ρ (srcM ρ e) (exprR ρ e) := by
  unfold srcMT srcM
  by_cases hv : isView e = true
  · rw [if_pos hv, if_pos hv]
    exact ((locT_pure ρ e).mono fun l h => .inl h).bind fun _ _ => Pure.ret _ _ _
  · rw [if_neg hv, if_neg hv]
    obtain ⟨o, hp, _, h⟩ := evalT_pure hρ e
    rw [h (by simpa using hv)]
    exact hp.bind fun _ _ => Pure.ret _ _ _

theorem getT_pure {ρ0 : CEnv K} {e : Ex K .v} {s : SrcV K} (hs : srcV ρ0 e = .ok s) (k : Nat) (ρ : CEnv K) :
    Pure (s.getT k) ρ (s.get ρ k) (exprR ρ0 e) := by
  unfold srcV at hs
  by_cases hv : isView e = true
  · rw [if_pos hv] at hs
    cases hl : locate ρ0 e with
    | ok l =>
      rw [hl] at hs; cases hs
      unfold SrcV.getT SrcV.get
      dsimp only
      by_cases hk : k < VL.n l
      · rw [if_pos hk, if_pos hk]
        refine loadT_pure _ _ _ (.inl ⟨_, locate_root e l hl, rfl⟩) (.inr ⟨(VL.root l, VL.cell l k), ?_, rfl⟩)
        rw [foot_view _ _ hv]; unfold viewCells; rw [hl]
        simp only [locCells, List.mem_map, List.mem_range]
        exact ⟨k, hk, rfl⟩
      · rw [if_neg hk, if_neg hk]; exact Pure.ret _ _ _
    | abort => rw [hl] at hs; cases hs
    | ub => rw [hl] at hs; cases hs
  · rw [if_neg hv] at hs
    cases hr : run ρ0 e with
    | ok b => rw [hr] at hs; cases hs; exact Pure.ret _ _ _
    | abort => rw [hr] at hs; cases hs
    | ub => rw [hr] at hs; cases hs
theorem getMT_pure {ρ0 : CEnv K} {e : Ex K .m} {s : SrcM K} (hs : srcM ρ0 e = .ok s) (i j : Nat) (ρ : CEnv K) :
    Pure (s.getT i j) ρ (s.get ρ i j) (exprR ρ0 e) := by
  unfold srcM at hs
  by_cases hv : isView e = true
  · rw [if_pos hv] at hs
    cases hl : locate ρ0 e with
    | ok l =>
      rw [hl] at hs; cases hs
      unfold SrcM.getT SrcM.get
      dsimp only
      by_cases hk : i < ML.r l ∧ j < ML.c l
      · rw [if_pos hk, if_pos hk]
        refine loadT_pure _ _ _ (.inl ⟨_, locate_root e l hl, rfl⟩)
          (.inr ⟨(ML.root l, ML.cell l i j), ?_, rfl⟩)
        rw [foot_view _ _ hv]; unfold viewCells; rw [hl]
        simp only [locCells, List.mem_flatMap, List.mem_map, List.mem_range]
        exact ⟨i, hk.1, j, hk.2, rfl⟩
      · rw [if_neg hk, if_neg hk]; exact Pure.ret _ _ _
    | abort => rw [hl] at hs; cases hs
    | ub => rw [hl] at hs; cases hs
  · rw [if_neg hv] at hs
    cases hr : run ρ0 e with
    | ok b => rw [hr] at hs; cases hs; exact Pure.ret _ _ _
    | abort => rw [hr] at hs; cases hs
    | ub => rw [hr] at hs; cases hs

end TooN.Expr
