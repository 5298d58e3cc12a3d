import Verif.Props.Thread
/-!
# C72: a matrix product computed by many threads, and a race

Thread `i` computes row `i` of the product: `m0[i] = m1[i] * m2`.
-/
set_option linter.unusedSectionVars false
set_option linter.unusedSimpArgs false
namespace TooN.Expr
open TooN.Thread Matrix
variable {K : Type} [Field K] {r k c : Nat}

def parEnv (Z : Matrix (Fin r) (Fin c) K) (A : Matrix (Fin r) (Fin k) K) (B : Matrix (Fin k) (Fin c) K) : SEnv K where
  v := fun _ => none
  m := fun i => match i with
    | 0 => some ((.dyn, .dyn), .m Z)
    | 1 => some ((.dyn, .dyn), .m A)
    | 2 => some ((.dyn, .dyn), .m B)
    | _ => none
def parRho (Z : Matrix (Fin r) (Fin c) K) (A : Matrix (Fin r) (Fin k) K) (B : Matrix (Fin k) (Fin c) K) : CEnv K where
  v := fun _ => none
  m := fun i => match i with
    | 0 => some (mkM .dyn .dyn Z)
    | 1 => some (mkM .dyn .dyn A)
    | 2 => some (mkM .dyn .dyn B)
    | _ => none

/-- `m0[i] = m1[i] * m2;` -/
def parProg (i : Fin r) : List (Stmt K) :=
  [.asg (.row (.varM 0) i) (.eqV (.mulVM (.row (.varM 1) i) (.varM 2)))]

variable (Z : Matrix (Fin r) (Fin c) K) (A : Matrix (Fin r) (Fin k) K) (B : Matrix (Fin k) (Fin c) K)

theorem parRep : EnvRep (parRho Z A B) (parEnv Z A B) where
  v := fun _ => .inl ⟨rfl, rfl⟩
  m := fun i => match i with
    | 0 => .inr ⟨_, .dyn, .dyn, r, c, Z, rfl, rfl, rfl, rfl, mkM_rep (R := .dyn) (C := .dyn) trivial trivial Z⟩
    | 1 => .inr ⟨_, .dyn, .dyn, r, k, A, rfl, rfl, rfl, rfl, mkM_rep (R := .dyn) (C := .dyn) trivial trivial A⟩
    | 2 => .inr ⟨_, .dyn, .dyn, k, c, B, rfl, rfl, rfl, rfl, mkM_rep (R := .dyn) (C := .dyn) trivial trivial B⟩
    | _+3 => .inl ⟨rfl, rfl⟩

theorem wfm_mkM {r c : Nat} (X : Matrix (Fin r) (Fin c) K) : WFM (mkM .dyn .dyn X) :=
  ⟨fun _ _ h => dif_neg h, dimS_dyn _, dimS_dyn _⟩

theorem parWF : WF (parRho Z A B) := by
  refine WF.mk' (fun i b h => by cases h) (fun i b h => ?_)
  match i, h with
  | 0, h => cases h; exact wfm_mkM Z
  | 1, h => cases h; exact wfm_mkM A
  | 2, h => cases h; exact wfm_mkM B
  | _+3, h => cases h

theorem progW_single (ρ : CEnv K) (s : Stmt K) : progW ρ [s] = stmtW ρ s := by
  unfold progW
  split
  · unfold progW; exact Set.union_empty _
  · exact Set.union_empty _
theorem progR_single (ρ : CEnv K) (s : Stmt K) : progR ρ [s] = stmtR ρ s := by
  unfold progR
  split
  · unfold progR; exact Set.union_empty _
  · exact Set.union_empty _

theorem parStep (i : Fin r) :
    Expr.Steps (parEnv Z A B) (parProg i) (parEnv (Z.updateRow i ((A * B) i)) A B) := by
  refine .cons ?_ .nil
  have hL : Loc (parEnv Z A B) (.row (.varM 0) i) (.m 0) (.v (fun j : Fin c => ((i : Nat), (j : Nat)))) :=
    .row (F := fun (p : Fin r) (q : Fin c) => ((p : Nat), (q : Nat))) (.varM rfl) (k := i) rfl i.2
  refine .asg (y := .v ((A * B) i)) id hL ?_ ?_
  · have : RDen (parEnv Z A B) (.row (.varM 0) i) (.eqV (.mulVM (.row (.varM 1) i) (.varM 2)))
        (.v (A i ᵥ* B)) := .eqV (.mulVM (.row (X := A) (.varM rfl) (k := i) rfl i.2) (.varM rfl))
    convert this using 2
    funext j
    rfl
  · refine ⟨.v, fun r' => ?_, fun p x ha => ?_, fun r' p hn => ?_⟩
    · rcases r' with j | j
      · rfl
      · match j with
        | 0 | 1 | 2 | _+3 => rfl
    · cases ha with
      | v _ _ j =>
        show (if h : _ then some _ else none) = _
        rw [dif_pos ⟨i.2, j.2⟩]
        exact congrArg some (congrFun (Matrix.updateRow_self) j)
    · rcases r' with j | j
      · rfl
      · match j with
        | 1 | 2 | _+3 => rfl
        | 0 =>
          have hn := hn rfl
          show (if h : _ then some _ else none) = (if h : _ then some _ else none)
          by_cases h : p.1 < r ∧ p.2 < c
          · rw [dif_pos h, dif_pos h]
            have hne : (⟨p.1, h.1⟩ : Fin r) ≠ i := fun e => by
              have := At.v (fun j : Fin c => ((i : Nat), (j : Nat))) ((A * B) i) ⟨p.2, h.2⟩
              have e' : p = ((i : Nat), p.2) := Prod.ext (congrArg Fin.val e) rfl
              rw [e'] at hn
              exact hn _ this
            exact congrArg some (congrFun (Matrix.updateRow_ne hne) _)
          · rw [dif_neg h, dif_neg h]

theorem parAvoids (i : Fin r) : Avoids (parEnv Z A B) (parProg i) := by
  refine ⟨?_, fun _ _ => trivial⟩
  have h0 : ¬ ∃ r' c', ∃ X : Matrix (Fin r') (Fin c') K, Den (parEnv Z A B) (.varM 0) (.m X) ∧
      ¬ ((0 : Int) ≤ (i : Nat) ∧ ((i : Nat) : Int) < r') := by
    rintro ⟨_, _, X, h1, h2⟩
    cases h1 with | varM h1 => cases h1; exact h2 ⟨by omega, by exact_mod_cast i.2⟩
  have h1 : ¬ ∃ r' c', ∃ X : Matrix (Fin r') (Fin c') K, Den (parEnv Z A B) (.varM 1) (.m X) ∧
      ¬ ((0 : Int) ≤ (i : Nat) ∧ ((i : Nat) : Int) < r') := by
    rintro ⟨_, _, X, h1, h2⟩
    cases h1 with | varM h1 => cases h1; exact h2 ⟨by omega, by exact_mod_cast i.2⟩
  rintro ((hq | hq) | (((hq | hq) | hq) | ⟨_, r', n, m, f, g, h2⟩ | ⟨hq, _⟩))
  · exact hq
  · exact h0 hq
  · exact hq
  · exact h1 hq
  · exact hq
  · cases h2.2.1
  · exact hq

theorem parLocate (i : Fin r) : locate (parRho Z A B) (.row (.varM 0) i) =
    .ok ⟨.m 0, Checks.Dynamic, c, fun j => ((i : Nat), j)⟩ := by
  show (if _ then _ else _) = _
  rw [if_pos ⟨by omega, by exact_mod_cast i.2⟩]
  rfl

theorem parW (i : Fin r) (l : MLoc) :
    l ∈ progW (parRho Z A B) (parProg i) ↔ ∃ j, j < c ∧ l = .cell (.m 0) ((i : Nat), j) := by
  rw [show progW (parRho Z A B) (parProg i) = _ from progW_single _ _]
  unfold stmtW
  dsimp only
  rw [parLocate]
  simp [asgW, resizes, locCells, Checks.Resizable, Checks.Dynamic]

theorem parR (i : Fin r) (l : MLoc) (hl : l ∈ progR (parRho Z A B) (parProg i)) :
    (∃ x, l = .shape x) ∨ l.root ≠ .m 0 := by
  rw [show progR (parRho Z A B) (parProg i) = _ from progR_single _ _] at hl
  · rcases hl with ⟨x, _, rfl⟩ | hl
    · exact .inl ⟨x, rfl⟩
    · rcases hl with ⟨x, _, rfl⟩ | ⟨x, hx, rfl⟩
      · exact .inl ⟨x, rfl⟩
      · right
        show x.1 ≠ .m 0
        unfold foot at hx
        rcases List.mem_append.1 hx with hx | hx
        · have hx : x ∈ viewCells (parRho Z A B) (.row (.varM 1) i) := hx
          unfold viewCells at hx
          have hl : locate (parRho Z A B) (.row (.varM 1) i) =
              .ok ⟨.m 1, Checks.Dynamic, k, fun j => ((i : Nat), j)⟩ := by
            show (if _ then _ else _) = _
            rw [if_pos ⟨by omega, by exact_mod_cast i.2⟩]
            rfl
          rw [hl] at hx
          simp only [locCells, List.mem_map] at hx
          obtain ⟨_, _, rfl⟩ := hx
          simp
        · unfold foot viewCells at hx
          have hl : locate (parRho Z A B) (.varM 2) =
              .ok ⟨.m 2, Checks.Dynamic, Checks.Dynamic, k, c, fun i j => (i, j)⟩ := rfl
          rw [hl] at hx
          simp only [locCells, List.mem_map, List.mem_flatMap] at hx
          obtain ⟨_, _, _, _, rfl⟩ := hx
          simp

theorem parApart : Apart (parRho Z A B) (parProg (K := K) (r := r)) := fun i j hij l hl => by
  rw [parW] at hl
  obtain ⟨q, hq, rfl⟩ := hl
  refine ⟨fun h => ?_, fun h => ?_⟩
  · rcases parR Z A B j _ h with ⟨x, h⟩ | h
    · cases h
    · exact h rfl
  · rw [parW] at h
    obtain ⟨q', _, h⟩ := h
    simp only [MLoc.cell.injEq, Prod.mk.injEq, true_and] at h
    exact hij (Fin.ext h.1)

/-- **C72** A matrix product computed by one thread per row, `m0[i] = m1[i] * m2`: for every size, any
previous contents of `m0`, and every schedule, there is no race, and when all threads have finished,
`m0` is the product of `m1` and `m2`, which are unchanged. -/
theorem c72_parallel_product {n : Nat} {cf : Config (varSys K) (Fin r) (Outcome Unit)}
    (hs : Thread.Steps (start (parRho Z A B) parProg) n cf) :
    ¬ Race cf ∧ (Done cf → (∀ i, cf.th i = .ret (.ok ())) ∧
      (∀ (i : Fin r) (j : Fin c), cf.mem.cellOf (.m 0) (i, j) = some ((A * B) i j)) ∧
      (∀ (i : Fin r) (j : Fin k), cf.mem.cellOf (.m 1) (i, j) = some (A i j)) ∧
      ∀ (i : Fin k) (j : Fin c), cf.mem.cellOf (.m 2) (i, j) = some (B i j)) := by
  refine ⟨c72_no_race (parWF Z A B) (parApart Z A B) hs, fun hd => ?_⟩
  obtain ⟨h1, h2⟩ := c72_meaning (parWF Z A B) (parRep Z A B) (parApart Z A B) (parAvoids Z A B)
    (parStep Z A B) hs
  have hno : ∀ q p, q ≠ 0 → ∀ i, .cell (.m q) p ∉ progW (parRho Z A B) (parProg i) := fun q p hq i hi => by
    rw [parW] at hi
    obtain ⟨j, _, hj⟩ := hi
    injection hj with hj _
    injection hj with hj
    exact hq hj
  refine ⟨fun i => ?_, fun i j => ?_, fun i j => ?_, fun i j => ?_⟩
  · obtain ⟨x, hx⟩ := hd i
    rw [hx, (h1 i x hx).1]
  · obtain ⟨x, hx⟩ := hd i
    rw [(h1 i x hx).2 (.m 0) (i, j) ((parW Z A B i _).2 ⟨j, j.2, rfl⟩)]
    show (if h : _ then some _ else none) = _
    rw [dif_pos ⟨i.2, j.2⟩]
    exact congrArg some (congrFun (Matrix.updateRow_self) j)
  · rw [h2 (.m 1) (i, j) (hno 1 _ (by norm_num))]
    show (if h : _ then some _ else none) = _
    rw [dif_pos ⟨i.2, j.2⟩]
  · rw [h2 (.m 2) (i, j) (hno 2 _ (by norm_num))]
    show (if h : _ then some _ else none) = _
    rw [dif_pos ⟨i.2, j.2⟩]

/-! ## A race -/

/-- the schedule that lets the threads of a list act one after the other -/
def sched {S : Sys} {α : Type} {ι : Type} [DecidableEq ι] : Config S ι α → List ι → Config S ι α
  | c, [] => c
  | c, i :: is => match c.th i with
    | .ret _ => sched c is
    | .act a k => sched ⟨(S.sem a c.mem).1, Function.update c.th i (k (S.sem a c.mem).2)⟩ is

theorem sched_steps {S : Sys} {α ι : Type} [DecidableEq ι] (c : Config S ι α) (is : List ι) :
    ∃ n, Thread.Steps c n (sched c is) := by
  induction is generalizing c with
  | nil => exact ⟨0, .refl _⟩
  | cons i is ih =>
    unfold sched
    split
    · exact ih c
    · rename_i a k h
      obtain ⟨n, hn⟩ := ih ⟨(S.sem a c.mem).1, Function.update c.th i (k (S.sem a c.mem).2)⟩
      exact ⟨n + 1, Thread.Steps.cons (.mk c i a k h) hn⟩

/-- `v0 = [0]` -/
def raceRho : CEnv ℚ := ⟨fun i => match i with | 0 => some (mkV (.st 1) ![(0:ℚ)]) | _ => none, fun _ => none⟩
/-- `v0[0] += 1;` in two threads -/
def raceProg (_ : Fin 2) : List (Stmt ℚ) := [.asg (.idx (.varV 0) 0) (.updS .add (.lit 1))]

/-- **C72** Without separation the claims fail: when two threads run `v0[0] += 1` on `v0 = [0]`, there is
a schedule that leads to a race, one that leaves 1, and one that leaves 2. -/
theorem c72_shared_wrong :
    (∃ n c, Thread.Steps (start raceRho raceProg) n c ∧ Race c) ∧
    (∃ n c, Thread.Steps (start raceRho raceProg) n c ∧ Done c ∧ c.mem.cellOf (.v 0) (0, 0) = some 1) ∧
    (∃ n c, Thread.Steps (start raceRho raceProg) n c ∧ Done c ∧ c.mem.cellOf (.v 0) (0, 0) = some 2) := by
  refine ⟨?_, ?_, ?_⟩
  · obtain ⟨n, hn⟩ := sched_steps (start raceRho raceProg) [0, 0, 1]
    refine ⟨n, _, hn, 0, 1, _, _, _, _, by decide, rfl, rfl, .cell (.v 0) (0, 0), rfl, .inl (.inr rfl)⟩
  · obtain ⟨n, hn⟩ := sched_steps (start raceRho raceProg) [0, 0, 1, 1, 0, 1]
    refine ⟨n, _, hn, fun i => ?_, ?_⟩
    · fin_cases i
      · exact ⟨_, rfl⟩
      · exact ⟨_, rfl⟩
    · show some ((0:ℚ) + 1) = some 1
      norm_num
  · obtain ⟨n, hn⟩ := sched_steps (start raceRho raceProg) [0, 0, 0, 1, 1, 1]
    refine ⟨n, _, hn, fun i => ?_, ?_⟩
    · fin_cases i
      · exact ⟨_, rfl⟩
      · exact ⟨_, rfl⟩
    · show some ((0:ℚ) + 1 + 1) = some 2
      norm_num

end TooN.Expr
