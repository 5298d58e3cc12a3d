import Verif.Proof.ThreadStmt
import Verif.Props.Prog
/-!
# C72: threads working on separate parts of shared vectors and matrices

Any number of threads run straight-line programs (those of C66) on shared variables.  If no program
writes a cell (or a size) that another one reads or writes, then under *every* schedule there is no data race,
every thread computes what it would compute alone, and everything terminates.
-/
set_option linter.unusedSectionVars false
set_option linter.unusedSimpArgs false
namespace TooN.Expr
open TooN.Thread Matrix

section anyArith
variable {K : Type} [Zero K] [One K] [Add K] [Sub K] [Mul K] [Div K] [Neg K]
variable {ι : Type} [DecidableEq ι]

/-- Thread `i` is about to run the program `P i`; the variables hold `ρ`. -/
def start (ρ : CEnv K) (P : ι → List (Stmt K)) : Config (varSys K) ι (Outcome Unit) :=
  ⟨ρ, fun i => progT (P i)⟩

/-- No program writes what another one reads or writes. -/
def Apart (ρ : CEnv K) (P : ι → List (Stmt K)) : Prop :=
  ∀ i j, i ≠ j → ∀ l ∈ progW ρ (P i), l ∉ progR ρ (P j) ∧ l ∉ progW ρ (P j)

/-- Every thread has finished. -/
def Done {S : Sys} {α : Type} (c : Config S ι α) : Prop := ∀ i, ∃ x, c.th i = .ret x

theorem Apart.separate {ρ : CEnv K} {P : ι → List (Stmt K)} (hρ : WF ρ) (h : Apart ρ P) :
    Separate (start ρ P) := fun i j hij l hl => by
  have hi := progT_sim (P i) hρ
  have hj := progT_sim (P j) hρ
  have := h i j hij l (hi.wr hl)
  exact ⟨fun hr => (hj.rd hr).elim this.1 this.2, fun hw => this.2 (hj.wr hw)⟩

variable [Fintype ι] {ρ : CEnv K} {P : ι → List (Stmt K)}

/-- **C72** No schedule leads to a data race. -/
theorem c72_no_race (hρ : WF ρ) (h : Apart ρ P) {n : Nat} {c : Config (varSys K) ι (Outcome Unit)}
    (hs : Thread.Steps (start ρ P) n c) : ¬ Race c := by
  obtain ⟨g, hI, _⟩ := inv_steps varSys_lawful (h.separate hρ) hs
  exact no_race (h.separate hρ) hI

theorem len_zero {S : Sys} {α : Type} (t : Th S α) (m : S.M) : t.len m = 0 ↔ ∃ x, t = .ret x := by
  cases t with
  | ret x => exact ⟨fun _ => ⟨x, rfl⟩, fun _ => rfl⟩
  | act a k => exact ⟨fun h => absurd h (Nat.succ_ne_zero _), fun ⟨_, h⟩ => by cases h⟩

/-- **C72** All schedules take the same number of steps until everything has finished, and as long as
something is unfinished a further step is possible. -/
theorem c72_terminates (hρ : WF ρ) (h : Apart ρ P) :
    ∃ N, ∀ n c, Thread.Steps (start ρ P) n c →
      n ≤ N ∧ (n = N ↔ Done c) ∧ (¬ Done c → ∃ c', Thread.Step c c') := by
  refine ⟨∑ i, (progT (P i)).len ρ, fun n c hs => ?_⟩
  obtain ⟨g, hI, hn⟩ := inv_steps varSys_lawful (h.separate hρ) hs
  have hn : n + ∑ i, (c.th i).len (g i) = ∑ i, (progT (P i)).len ρ := hn
  refine ⟨by omega, ?_, fun hd => ?_⟩
  · rw [show n = ∑ i, (progT (P i)).len ρ ↔ ∑ i, (c.th i).len (g i) = 0 by omega, Finset.sum_eq_zero_iff]
    exact ⟨fun h0 i => (len_zero _ _).1 (h0 i (Finset.mem_univ i)),
      fun h0 i _ => (len_zero _ _).2 (h0 i)⟩
  · unfold Done at hd
    push Not at hd
    obtain ⟨i, hi⟩ := hd
    cases hc : c.th i with
    | ret x => exact absurd hc (hi x)
    | act a k => exact ⟨_, .mk c i a k hc⟩

/-- **C72** A thread that has finished has the outcome its program has alone (`runP`, the subject of C66), and the
locations its program writes hold what they hold after the program has run alone, whatever the other
threads are doing. -/
theorem c72_result (hρ : WF ρ) (h : Apart ρ P) {n : Nat} {c : Config (varSys K) ι (Outcome Unit)}
    (hs : Thread.Steps (start ρ P) n c) (i : ι) (o : Outcome Unit) (hi : c.th i = .ret o) :
    o = (runP ρ (P i)).bind (fun _ => .ok ()) ∧
    ∀ ρ', runP ρ (P i) = .ok ρ' → ∀ l ∈ progW ρ (P i), c.mem.look l = ρ'.look l := by
  obtain ⟨g, hI, _⟩ := inv_steps varSys_lawful (h.separate hρ) hs
  obtain ⟨h1, h2⟩ := inv_done hI i o hi
  have hsim := progT_sim (P i) hρ
  refine ⟨h1.symm.trans hsim.out, fun ρ' he l hl => ?_⟩
  by_cases hw : l ∈ (progT (P i)).writes ρ
  · exact (h2 l hw).trans (hsim.mem ρ' he l)
  · have hf := Th.frame varSys_lawful (progT (P i)) ρ l hw
    rw [← hsim.mem ρ' he l]
    refine Eq.trans ?_ hf.symm
    refine hI.out l fun j hj => ?_
    by_cases hij : j = i
    · subst hij; exact hw hj
    · exact (h j i hij l ((progT_sim (P j) hρ).wr hj)).2 hl

/-- **C72** A location that no program writes keeps its contents, at every moment. -/
theorem c72_frame (hρ : WF ρ) (h : Apart ρ P) {n : Nat} {c : Config (varSys K) ι (Outcome Unit)}
    (hs : Thread.Steps (start ρ P) n c) (l : MLoc) (hl : ∀ i, l ∉ progW ρ (P i)) :
    c.mem.look l = ρ.look l := by
  obtain ⟨g, hI, _⟩ := inv_steps varSys_lawful (h.separate hρ) hs
  exact hI.out l fun i hi => hl i ((progT_sim (P i) hρ).wr hi)

/-- **C72** The outcome does not depend on the schedule: two complete executions end with the same results
and the same contents everywhere (also when some threads stop at a failed size check). -/
theorem c72_deterministic (hρ : WF ρ) (h : Apart ρ P) {n n' : Nat}
    {c c' : Config (varSys K) ι (Outcome Unit)} (hs : Thread.Steps (start ρ P) n c)
    (hs' : Thread.Steps (start ρ P) n' c') (hd : Done c) (hd' : Done c') :
    c.th = c'.th ∧ ∀ l, c.mem.look l = c'.mem.look l := by
  obtain ⟨g, hI, _⟩ := inv_steps varSys_lawful (h.separate hρ) hs
  obtain ⟨g', hI', _⟩ := inv_steps varSys_lawful (h.separate hρ) hs'
  refine ⟨funext fun i => ?_, fun l => ?_⟩
  · obtain ⟨x, hx⟩ := hd i
    obtain ⟨y, hy⟩ := hd' i
    have h1 := (inv_done hI i x hx).1
    have h2 := (inv_done hI' i y hy).1
    rw [hx, hy, ← h1, ← h2]
  · by_cases hl : ∃ i, l ∈ (progT (P i)).writes ρ
    · obtain ⟨i, hi⟩ := hl
      obtain ⟨x, hx⟩ := hd i
      obtain ⟨y, hy⟩ := hd' i
      exact ((inv_done hI i x hx).2 l hi).trans ((inv_done hI' i y hy).2 l hi).symm
    · push Not at hl
      exact (hI.out l hl).trans (hI'.out l hl).symm

end anyArith

/-! ## In terms of mathematics -/

variable {K : Type} [Field K] {ι : Type} [DecidableEq ι] [Fintype ι]
  {ρ : CEnv K} {σ : SEnv K} {P : ι → List (Stmt K)}

theorem cellOf_rep (h : EnvRep ρ σ) (r : Root) (p : Nat × Nat) : ρ.cellOf r p = σ.cell r p := by
  cases r with
  | v i =>
    unfold CEnv.cellOf SEnv.cell
    dsimp only
    rcases h.v i with ⟨h1, h2⟩ | ⟨b, S, n, x, h1, h2, _, _, h4, h5⟩
    · rw [h1, h2]; rfl
    · rw [h1, h2]
      subst h4
      dsimp only [Option.bind_some]
      by_cases hp : p.1 < b.n ∧ p.2 = 0
      · rw [if_pos hp, dif_pos hp]; exact h5 ⟨p.1, hp.1⟩
      · rw [if_neg hp, dif_neg hp]
  | m i =>
    unfold CEnv.cellOf SEnv.cell
    dsimp only
    rcases h.m i with ⟨h1, h2⟩ | ⟨b, S, S', r, c, X, h1, h2, _, _, _, _, h4, h4', h5⟩
    · rw [h1, h2]; rfl
    · rw [h1, h2]
      subst h4; subst h4'
      dsimp only [Option.bind_some]
      by_cases hp : p.1 < b.r ∧ p.2 < b.c
      · rw [if_pos hp, dif_pos hp]; exact h5 ⟨p.1, hp.1⟩ ⟨p.2, hp.2⟩
      · rw [if_neg hp, dif_neg hp]

theorem runP_of_execP {p : List (Stmt K)} {ρ' : CEnv K} (h : execP ρ p = .ok ρ') : runP ρ p = .ok ρ' := by
  unfold execP at h
  split at h
  · cases h
  · split at h
    · cases h; assumption
    · cases h
    · cases h

/-- **C72** If every thread's program makes sense on its own, with meaning `σ' i`, then under every
schedule every finished thread has run to its end, and every cell it assigns has the value the
mathematics says; cells that nobody assigns are unchanged. -/
theorem c72_meaning (hρ : WF ρ) (hσ : EnvRep ρ σ) (h : Apart ρ P) (ha : ∀ i, Avoids σ (P i))
    {σ' : ι → SEnv K} (hm : ∀ i, Expr.Steps σ (P i) (σ' i)) {n : Nat}
    {c : Config (varSys K) ι (Outcome Unit)} (hs : Thread.Steps (start ρ P) n c) :
    (∀ i o, c.th i = .ret o → o = .ok () ∧
      ∀ r p, .cell r p ∈ progW ρ (P i) → c.mem.cellOf r p = (σ' i).cell r p) ∧
    ∀ r p, (∀ i, .cell r p ∉ progW ρ (P i)) → c.mem.cellOf r p = σ.cell r p := by
  refine ⟨fun i o hi => ?_, fun r p hl => ?_⟩
  · obtain ⟨ρ', he, hr⟩ := c66_complete hσ (P i) (ha i) (hm i)
    have he := runP_of_execP he
    obtain ⟨h1, h2⟩ := c72_result hρ h hs i o hi
    rw [he] at h1
    refine ⟨h1, fun r p hl => ?_⟩
    have := h2 ρ' he _ hl
    rw [← cellOf_rep hr]
    unfold CEnv.look at this
    injection this
  · have := c72_frame hρ h hs (.cell r p) hl
    rw [← cellOf_rep hσ]
    unfold CEnv.look at this
    injection this

end TooN.Expr
