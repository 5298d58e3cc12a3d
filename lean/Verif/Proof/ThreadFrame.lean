import Verif.Model.Thread
import Verif.Proof.Thread
import Verif.Proof.Param
/-!
# What accesses and expressions depend on
-/
set_option linter.unusedSectionVars false
set_option linter.unusedSimpArgs false
namespace TooN.Expr
open TooN.Thread

variable {K : Type}

theorem look_shape {ρ ρ' : CEnv K} {r : Root} :
    ρ.look (.shape r) = ρ'.look (.shape r) ↔ ρ.shapeOf r = ρ'.shapeOf r := by
  simp [CEnv.look]
theorem look_cell {ρ ρ' : CEnv K} {r : Root} {p : Nat × Nat} :
    ρ.look (.cell r p) = ρ'.look (.cell r p) ↔ ρ.cellOf r p = ρ'.cellOf r p := by
  simp [CEnv.look]

/-- same contents everywhere -/
def Same (ρ ρ' : CEnv K) : Prop := ∀ l, ρ.look l = ρ'.look l

theorem Same.refl (ρ : CEnv K) : Same ρ ρ := fun _ => rfl
theorem Same.symm {ρ ρ' : CEnv K} (h : Same ρ ρ') : Same ρ' ρ := fun l => (h l).symm
theorem Same.trans {ρ ρ' ρ'' : CEnv K} (h : Same ρ ρ') (h' : Same ρ' ρ'') : Same ρ ρ'' :=
  fun l => (h l).trans (h' l)

def InRange (o : Option Shp) (p : Nat × Nat) : Prop := ∃ s, o = some s ∧ p.1 < s.r ∧ p.2 < s.c

theorem cellOf_out (ρ : CEnv K) (r : Root) (p : Nat × Nat) (h : ¬ InRange (ρ.shapeOf r) p) :
    ρ.cellOf r p = none := by
  cases r with
  | v i =>
    cases hb : ρ.v i with
    | none => simp [CEnv.cellOf, hb]
    | some b =>
      simp only [CEnv.cellOf, hb, Option.bind_some]
      rw [if_neg]
      rintro ⟨h1, h2⟩
      exact h ⟨⟨b.S, 1, b.n, 1⟩, by simp [CEnv.shapeOf, hb], h1, by show p.2 < 1; omega⟩
  | m i =>
    cases hb : ρ.m i with
    | none => simp [CEnv.cellOf, hb]
    | some b =>
      simp only [CEnv.cellOf, hb, Option.bind_some]
      rw [if_neg]
      rintro ⟨h1, h2⟩
      exact h ⟨⟨b.R, b.C, b.r, b.c⟩, by simp [CEnv.shapeOf, hb], h1, h2⟩

theorem read_eq (ρ : CEnv K) (r : Root) (p : Nat × Nat) :
    ρ.read r p = match ρ.cellOf r p with | some x => .ok x | none => .ub := by
  cases r with
  | v i =>
    cases hb : ρ.v i with
    | none => simp [CEnv.read, CEnv.cellOf, hb]
    | some b =>
      simp only [CEnv.read, CEnv.cellOf, hb, Option.bind_some, VB.get]
      by_cases h1 : p.1 < b.n <;> by_cases h2 : p.2 = 0 <;> simp [h1, h2] <;> rfl
  | m i =>
    cases hb : ρ.m i with
    | none => simp [CEnv.read, CEnv.cellOf, hb]
    | some b =>
      simp only [CEnv.read, CEnv.cellOf, hb, Option.bind_some, MB.get]
      by_cases h1 : p.1 < b.r <;> by_cases h2 : p.2 < b.c <;> simp [h1, h2] <;> rfl

theorem write_out (ρ : CEnv K) (r : Root) (p : Nat × Nat) (x : K) (h : ¬ InRange (ρ.shapeOf r) p) :
    ρ.write r p x = .ub := by
  cases r with
  | v i =>
    cases hb : ρ.v i with
    | none => simp [CEnv.write, hb]
    | some b =>
      simp only [CEnv.write, hb, VB.set]
      split
      · rename_i h2
        rw [if_neg]; rfl
        intro h1
        exact h ⟨⟨b.S, 1, b.n, 1⟩, by simp [CEnv.shapeOf, hb], h1, by show p.2 < 1; omega⟩
      · rfl
  | m i =>
    cases hb : ρ.m i with
    | none => simp [CEnv.write, hb]
    | some b =>
      simp only [CEnv.write, hb, MB.set]
      rw [if_neg]; rfl
      rintro ⟨h1, h2⟩
      exact h ⟨⟨b.R, b.C, b.r, b.c⟩, by simp [CEnv.shapeOf, hb], h1, h2⟩

theorem write_in (ρ : CEnv K) (r : Root) (p : Nat × Nat) (x : K) (h : InRange (ρ.shapeOf r) p) :
    ∃ ρ', ρ.write r p x = .ok ρ' ∧ (∀ r', ρ'.shapeOf r' = ρ.shapeOf r') ∧ ρ'.cellOf r p = some x ∧
      ∀ r' p', (r', p') ≠ (r, p) → ρ'.cellOf r' p' = ρ.cellOf r' p' := by
  obtain ⟨s, hs, h1, h2⟩ := h
  cases r with
  | v i =>
    cases hb : ρ.v i with
    | none => simp [CEnv.shapeOf, hb] at hs
    | some b =>
      simp only [CEnv.shapeOf, hb, Option.map_some, Option.some.injEq] at hs
      subst hs
      have h3 : p.2 = 0 := by change p.2 < 1 at h2; omega
      change p.1 < b.n at h1
      refine ⟨_, by simp only [CEnv.write, hb, VB.set, if_pos h1, if_pos h3, Outcome.bind]; rfl, ?_, ?_, ?_⟩
      · rintro (j | j)
        · by_cases hj : j = i
          · subst hj; simp [CEnv.shapeOf, hb]
          · simp [CEnv.shapeOf, hj]
        · rfl
      · simp [CEnv.cellOf, h1, h3]
      · rintro (j | j) p' hne
        · by_cases hj : j = i
          · subst hj
            simp only [CEnv.cellOf, if_true, hb, Option.bind_some]
            by_cases h4 : p'.1 < b.n ∧ p'.2 = 0
            · rw [if_pos h4, if_pos h4, if_neg]
              intro h5
              exact hne (by rw [Prod.mk.injEq]; exact ⟨rfl, Prod.ext h5 (h4.2.trans h3.symm)⟩)
            · rw [if_neg h4, if_neg h4]
          · simp [CEnv.cellOf, hj]
        · rfl
  | m i =>
    cases hb : ρ.m i with
    | none => simp [CEnv.shapeOf, hb] at hs
    | some b =>
      simp only [CEnv.shapeOf, hb, Option.map_some, Option.some.injEq] at hs
      subst hs
      refine ⟨_, by simp only [CEnv.write, hb, MB.set, if_pos (And.intro h1 h2), Outcome.bind]; rfl, ?_, ?_, ?_⟩
      · rintro (j | j)
        · rfl
        · by_cases hj : j = i
          · subst hj; simp [CEnv.shapeOf, hb]
          · simp [CEnv.shapeOf, hj]
      · have h1' : p.1 < b.r := h1
        have h2' : p.2 < b.c := h2
        simp [CEnv.cellOf, h1', h2']
      · rintro (j | j) p' hne
        · rfl
        · by_cases hj : j = i
          · subst hj
            simp only [CEnv.cellOf, if_true, hb, Option.bind_some]
            by_cases h4 : p'.1 < b.r ∧ p'.2 < b.c
            · rw [if_pos h4, if_pos h4, if_neg]
              rintro ⟨h5, h6⟩
              exact hne (by rw [Prod.mk.injEq]; exact ⟨rfl, Prod.ext h5 h6⟩)
            · rw [if_neg h4, if_neg h4]
          · simp [CEnv.cellOf, hj]

theorem sem_store_in (ρ : CEnv K) (r : Root) (p : Nat × Nat) (x : K) (h : InRange (ρ.shapeOf r) p) :
    ∃ ρ', ρ.write r p x = .ok ρ' ∧ (Acc.store r p x).sem ρ = (ρ', .ok ()) := by
  obtain ⟨ρ', h1, _⟩ := write_in ρ r p x h
  exact ⟨ρ', h1, by simp only [Acc.sem, h1]⟩
theorem sem_store_out (ρ : CEnv K) (r : Root) (p : Nat × Nat) (x : K)
    (h : ¬ InRange (ρ.shapeOf r) p) : (Acc.store r p x).sem ρ = (ρ, .ub) := by
  simp only [Acc.sem, write_out ρ r p x h]

theorem make_look (ρ : CEnv K) (i : Nat) (b : VB K) (l : MLoc) :
    ((Acc.makeV i b).sem ρ).1.look l = if l.root = .v i then
      (match l with
        | .shape _ => .shp (some ⟨b.S, 1, b.n, 1⟩)
        | .cell _ p => .val (if p.1 < b.n ∧ p.2 = 0 then b.cell p.1 else none)) else ρ.look l := by
  rcases l with (j | j) | ⟨j | j, p⟩ <;> simp [Acc.sem, CEnv.look, CEnv.shapeOf, CEnv.cellOf, MLoc.root]
  · split <;> simp
  · split <;> simp
theorem make_lookM (ρ : CEnv K) (i : Nat) (b : MB K) (l : MLoc) :
    ((Acc.makeM i b).sem ρ).1.look l = if l.root = .m i then
      (match l with
        | .shape _ => .shp (some ⟨b.R, b.C, b.r, b.c⟩)
        | .cell _ p => .val (if p.1 < b.r ∧ p.2 < b.c then b.cell p.1 p.2 else none))
      else ρ.look l := by
  rcases l with (j | j) | ⟨j | j, p⟩ <;> simp [Acc.sem, CEnv.look, CEnv.shapeOf, CEnv.cellOf, MLoc.root]
  · split <;> simp
  · split <;> simp

/-- The declared read and write sets are honest. -/
theorem varSys_lawful : (varSys K).Lawful := by
  refine ⟨fun a m m' h => ?_, fun a m m' h l hl => ?_, fun a m l hl => ?_⟩
  · cases a with
    | size r => exact look_shape.1 (h _ rfl)
    | load r p => exact look_cell.1 (h _ (.inr rfl))
    | store r p x =>
      have hs : m.shapeOf r = m'.shapeOf r := look_shape.1 (h _ rfl)
      show ((Acc.store r p x).sem m).2 = ((Acc.store r p x).sem m').2
      by_cases hr : InRange (m.shapeOf r) p
      · obtain ⟨_, _, h1⟩ := sem_store_in m r p x hr
        obtain ⟨_, _, h2⟩ := sem_store_in m' r p x (hs ▸ hr)
        rw [h1, h2]
      · rw [sem_store_out m r p x hr, sem_store_out m' r p x (hs ▸ hr)]
    | makeV i b => rfl
    | makeM i b => rfl
  · cases a with
    | size r => exact hl.elim
    | load r p => exact hl.elim
    | store r p x =>
      have hs : m.shapeOf r = m'.shapeOf r := look_shape.1 (h _ rfl)
      obtain rfl : l = .cell r p := hl
      show CEnv.look ((Acc.store r p x).sem m).1 (MLoc.cell r p) = CEnv.look ((Acc.store r p x).sem m').1 (MLoc.cell r p)
      rw [look_cell]
      by_cases hr : InRange (m.shapeOf r) p
      · obtain ⟨ρ1, h1, h1'⟩ := sem_store_in m r p x hr
        obtain ⟨ρ2, h2, h2'⟩ := sem_store_in m' r p x (hs ▸ hr)
        obtain ⟨_, g1, _, g2, _⟩ := write_in m r p x hr
        obtain ⟨_, g3, _, g4, _⟩ := write_in m' r p x (hs ▸ hr)
        rw [h1] at g1; cases g1
        rw [h2] at g3; cases g3
        rw [h1', h2', g2, g4]
      · rw [sem_store_out m r p x hr, sem_store_out m' r p x (hs ▸ hr),
          cellOf_out _ _ _ hr, cellOf_out _ _ _ (hs ▸ hr)]
    | makeV i b =>
      have hl' : l.root = .v i := hl
      show CEnv.look ((Acc.makeV i b).sem m).1 _ = CEnv.look ((Acc.makeV i b).sem m').1 _
      rw [make_look, make_look, if_pos hl', if_pos hl']
    | makeM i b =>
      have hl' : l.root = .m i := hl
      show CEnv.look ((Acc.makeM i b).sem m).1 _ = CEnv.look ((Acc.makeM i b).sem m').1 _
      rw [make_lookM, make_lookM, if_pos hl', if_pos hl']
  · cases a with
    | size r => rfl
    | load r p => rfl
    | store r p x =>
      show CEnv.look ((Acc.store r p x).sem m).1 _ = CEnv.look m _
      by_cases hr : InRange (m.shapeOf r) p
      · obtain ⟨ρ', h1, h1'⟩ := sem_store_in m r p x hr
        obtain ⟨_, g1, g2, _, g3⟩ := write_in m r p x hr
        rw [h1] at g1; cases g1
        rw [h1']
        cases l with
        | shape r' => exact look_shape.2 (g2 r')
        | cell r' p' =>
          refine look_cell.2 (g3 r' p' ?_)
          intro he; cases he; exact hl rfl
      · rw [sem_store_out m r p x hr]
    | makeV i b =>
      show CEnv.look ((Acc.makeV i b).sem m).1 _ = CEnv.look m _
      rw [make_look]; exact if_neg (fun h => hl h)
    | makeM i b =>
      show CEnv.look ((Acc.makeM i b).sem m).1 _ = CEnv.look m _
      rw [make_lookM]; exact if_neg (fun h => hl h)

end TooN.Expr
