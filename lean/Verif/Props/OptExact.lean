import Verif.Model.OptMach
import Verif.Model.Simplex
import Verif.Model.CG
import Mathlib.Data.EReal.Basic
import Mathlib.Tactic
/-!
# C74: the optimisers over machine numbers are the optimisers of C45–C48

The theorems C45–C48 are about models of the same code in exact real arithmetic, those of C74 about models over an arbitrary
floating-point type.  Here the latter, instantiated with exact arithmetic with ±∞ and NaN, are shown to compute the same results
as the former, so that both sets of theorems are about one program.
-/
set_option linter.unusedSectionVars false
namespace TooN.Mach
namespace Exact
open scoped Classical
noncomputable section

/-- exact numbers: the reals, two infinities and "not a number" -/
inductive XR
  | fin (x : ℝ)
  | pinf
  | ninf
  | nan

namespace XR
/-- an operation on real numbers; nothing is said about infinities (the result is NaN), the theorems below show that they are
not operated on -/
def lift2 (o : ℝ → ℝ → XR) : XR → XR → XR
  | fin x, fin y => o x y
  | _, _ => nan
/-- the position in the order -/
def key : XR → Option EReal
  | fin x => some (x : EReal)
  | pinf => some ⊤
  | ninf => some ⊥
  | nan => none
/-- `-x` -/
def neg : XR → XR
  | fin x => fin (-x)
  | pinf => ninf
  | ninf => pinf
  | nan => nan
/-- a function of a real number -/
def lift1 (o : ℝ → ℝ) : XR → XR
  | fin x => fin (o x)
  | _ => nan
end XR

/-- exact arithmetic; dividing by zero gives NaN -/
def exact : Mach where
  F := XR
  K := EReal
  ord := inferInstance
  key := XR.key
  add := XR.lift2 fun x y => .fin (x + y)
  sub := XR.lift2 fun x y => .fin (x - y)
  mul := XR.lift2 fun x y => .fin (x * y)
  div := XR.lift2 fun x y => if y = 0 then .nan else .fin (x / y)
  neg := XR.neg
  abs := XR.lift1 fun x => |x|
  sqrt := XR.lift1 Real.sqrt
  lit := fun q => .fin q
  gold := .fin Line.g
  huge := .pinf

/-- not a number -/
def xnan : exact.F := XR.nan
/-- a real number as a machine number -/
def ι (x : ℝ) : exact.F := XR.fin x

theorem ι_add (x y : ℝ) : ι x + ι y = ι (x + y) := rfl
theorem ι_sub (x y : ℝ) : ι x - ι y = ι (x - y) := rfl
theorem ι_mul (x y : ℝ) : ι x * ι y = ι (x * y) := rfl
theorem ι_abs (x : ℝ) : exact.abs (ι x) = ι |x| := rfl
theorem ι_sqrt (x : ℝ) : exact.sqrt (ι x) = ι (Real.sqrt x) := rfl
theorem ι_gold : exact.gold = ι Line.g := rfl
theorem ι_lit (q : ℚ) : exact.lit q = ι q := rfl
theorem ι_div {y : ℝ} (x : ℝ) (h : y ≠ 0) : ι x / ι y = ι (x / y) := if_neg h
theorem ι_div0 (x : ℝ) : ι x / ι 0 = xnan := if_pos rfl
theorem ι_lt (x y : ℝ) : ι x < ι y ↔ x < y := by
  constructor
  · rintro ⟨a, b, h1, h2, h⟩
    cases h1; cases h2
    exact EReal.coe_lt_coe_iff.1 h
  · intro h
    exact ⟨_, _, rfl, rfl, EReal.coe_lt_coe_iff.2 h⟩
theorem ι_gt (x y : ℝ) : ι x > ι y ↔ x > y := ι_lt y x
theorem ι_le (x y : ℝ) : ι x ≤ ι y ↔ x ≤ y := by
  constructor
  · rintro ⟨a, b, h1, h2, h⟩
    cases h1; cases h2
    exact EReal.coe_le_coe_iff.1 h
  · intro h
    exact ⟨_, _, rfl, rfl, EReal.coe_le_coe_iff.2 h⟩
theorem ι_ge (x y : ℝ) : ι x ≥ ι y ↔ x ≥ y := ι_le y x
theorem ι_eqv (x y : ℝ) : eqv (ι x) (ι y) ↔ x = y := by
  constructor
  · rintro ⟨a, h1, h2⟩
    have := h1.trans h2.symm
    injection this with h
    exact EReal.coe_eq_coe_iff.1 h
  · rintro rfl
    exact ⟨_, rfl, rfl⟩
theorem ι_nan (x : ℝ) : ¬ NaN (ι x) := by
  intro h
  exact Option.some_ne_none _ h
theorem ι_lt_huge (x : ℝ) : ι x < exact.huge := ⟨_, _, rfl, rfl, EReal.coe_lt_top x⟩
theorem ι_gt_huge (x : ℝ) : ι x > -exact.huge := ⟨_, _, rfl, rfl, EReal.bot_lt_coe x⟩
theorem ι_not_lt_huge (x : ℝ) : ¬ ι x < -exact.huge := by
  rintro ⟨a, b, h1, h2, h⟩
  cases h1; cases h2
  exact absurd h (not_lt_bot (α := EReal))
theorem nan_lt_right (x : exact.F) : ¬ x < xnan := by
  rintro ⟨a, b, h1, h2, h⟩
  cases h2
theorem nan_lt_left (x : exact.F) : ¬ xnan < x := by
  rintro ⟨a, b, h1, h2, h⟩
  cases h1
theorem nan_le_right (x : exact.F) : ¬ x ≤ xnan := by
  rintro ⟨a, b, h1, h2, h⟩
  cases h2
theorem nan_le_left (x : exact.F) : ¬ xnan ≤ x := by
  rintro ⟨a, b, h1, h2, h⟩
  cases h1

/-! ### golden_section_search -/

def GS.of (s : Line.GS) : GS exact := ⟨ι s.a, ι s.x1, ι s.x2, ι s.c, ι s.fx1, ι s.fx2, s.log.map ι⟩

theorem exact_golden_eq {f : ℝ → ℝ} {f' : exact.F → exact.F} (hf : ∀ x, f' (ι x) = ι (f x)) (fuel : Nat) (a b c fb : ℝ)
    (maxit : Int) (tol : ℝ) :
    goldenSection f' fuel (ι a) (ι b) (ι c) (ι fb) maxit (ι tol) =
      (Line.goldenSection f fuel a b c fb maxit tol).map fun r => (ι r.1, ι r.2.1, r.2.2.map ι) := by
  have hstep : ∀ s, gsStep f' (GS.of s) = GS.of (Line.gsStep f s) := by
    intro s
    unfold gsStep Line.gsStep GS.of
    simp only [ι_gold, ι_sub, ι_mul, ι_add, hf, ι_gt]
    split <;> rfl
  have hinit : gsInit f' (ι a) (ι b) (ι c) (ι fb) = GS.of (Line.gsInit f a b c fb) := by
    unfold gsInit Line.gsInit
    simp only [ι_gold, ι_sub, ι_mul, ι_add, ι_abs, hf, ι_gt]
    split <;> rfl
  have hcond : ∀ s, gsCond maxit (ι tol) (GS.of s) ↔ Line.gsCond maxit tol s := by
    intro s
    unfold gsCond Line.gsCond GS.of
    simp only [ι_sub, ι_mul, ι_add, ι_abs, ι_gt]
  have hloop : ∀ s, gsLoop f' maxit (ι tol) fuel (GS.of s) = (Line.gsLoop f maxit tol fuel s).map GS.of := by
    induction fuel with
    | zero => intro s; rfl
    | succ k ih =>
      intro s
      unfold gsLoop Line.gsLoop
      by_cases h : Line.gsCond maxit tol s
      · rw [if_pos h, if_pos ((hcond s).2 h), hstep, ih]
      · rw [if_neg h, if_neg (fun h' => h ((hcond s).1 h'))]
        rfl
  unfold goldenSection Line.goldenSection
  rw [hinit, hloop, Option.map_map, Option.map_map]
  congr 1
  funext s
  simp only [Function.comp_apply, gsOut, Line.gsOut, GS.of, ι_lt]
  split <;> rfl

/-! ### brent_line_search -/

def BR.of (s : Line.BR) : BR exact :=
  ⟨ι s.a, ι s.x, ι s.b, ι s.fx, ι s.w, ι s.v, ι s.fw, ι s.fv, ι s.d, ι s.e, s.log.map ι⟩

theorem brGolden_of (s : Line.BR) : brGolden (BR.of s) = (ι (Line.brGolden s).1, ι (Line.brGolden s).2) := by
  have h2 : ι (s.a + s.b) / exact.lit 2 = ι ((s.a + s.b) / 2) := by
    rw [ι_lit]; norm_num; exact ι_div _ (by norm_num)
  unfold brGolden Line.brGolden BR.of
  simp only [ι_sub, ι_mul, ι_add, ι_gold, h2, ι_gt]
  split <;> rfl

theorem brMove_of (tol eps : ℝ) (s : Line.BR) :
    brMove (ι tol) (ι eps) (BR.of s) = (ι (Line.brMove tol eps s).1, ι (Line.brMove tol eps s).2) := by
  have hg := brGolden_of s
  have h2 : ι s.e / exact.lit 2 = ι (s.e / 2) := by
    rw [ι_lit]; norm_num; exact ι_div _ (by norm_num)
  have l2 : exact.lit 2 = ι 2 := by rw [ι_lit]; norm_num
  have l0 : exact.lit 0 = ι 0 := by rw [ι_lit]; norm_num
  unfold brMove Line.brMove
  dsimp only
  have c1 : (exact.abs (BR.of s).e > exact.abs (BR.of s).x * ι tol + ι eps ∧ ¬ eqv (BR.of s).w (BR.of s).v) ↔
      (|s.e| > |s.x| * tol + eps ∧ s.w ≠ s.v) := by
    simp only [BR.of, ι_abs, ι_mul, ι_add, ι_gt, ι_eqv, ne_eq]
  by_cases h1 : |s.e| > |s.x| * tol + eps ∧ s.w ≠ s.v
  · rw [if_pos h1, if_pos (c1.2 h1)]
    simp only [BR.of] at hg ⊢
    simp only [ι_sub, ι_mul, l2, l0, ι_eqv]
    by_cases hq : 2 * ((s.fv - s.fx) * (s.w - s.x) - (s.fw - s.fx) * (s.v - s.x)) = 0
    · rw [if_pos (Or.inl hq), if_pos (Or.inl hq), hg]
    · rw [ι_div _ hq, ← l2, h2]
      simp only [ι_add, ι_lt, ι_gt, ι_abs]
      split
      · rw [hg]
      · rfl
  · rw [if_neg h1, if_neg (fun h => h1 (c1.1 h)), hg]

theorem brStep_of {f : ℝ → ℝ} {f' : exact.F → exact.F} (tol eps : ℝ) (s : Line.BR)
    (hf : ∀ x ∈ (Line.brStep f tol eps s).log, f' (ι x) = ι (f x)) :
    brStep f' (ι tol) (ι eps) (BR.of s) = BR.of (Line.brStep f tol eps s) := by
  have hm := brMove_of tol eps s
  have hu : f' (ι (s.x + (Line.brMove tol eps s).1)) = ι (f (s.x + (Line.brMove tol eps s).1)) := by
    refine hf _ ?_
    unfold Line.brStep
    dsimp only
    split_ifs <;> exact List.mem_cons_self
  unfold brStep Line.brStep
  dsimp only
  rw [hm]
  revert hu
  generalize Line.brMove tol eps s = m
  intro hu
  have e : (BR.of s).x + ι m.1 = ι (s.x + m.1) := rfl
  dsimp only
  rw [e, hu]
  by_cases h1 : f (s.x + m.1) < s.fx
  · have h1' : ι (f (s.x + m.1)) < (BR.of s).fx := (ι_lt _ _).2 h1
    rw [if_pos h1, if_pos h1']
    by_cases h2 : s.x + m.1 > s.x
    · rw [if_pos h2, if_pos (show ι (s.x + m.1) > (BR.of s).x from (ι_gt _ _).2 h2)]
      rfl
    · rw [if_neg h2, if_neg (show ¬ ι (s.x + m.1) > (BR.of s).x from fun h => h2 ((ι_gt _ _).1 h))]
      rfl
  · have h1' : ¬ ι (f (s.x + m.1)) < (BR.of s).fx := fun h => h1 ((ι_lt _ _).1 h)
    rw [if_neg h1, if_neg h1']
    by_cases h2 : s.x + m.1 < s.x
    · rw [if_pos h2, if_pos (show ι (s.x + m.1) < (BR.of s).x from (ι_lt _ _).2 h2)]
      simp only [BR.of, ι_le, ι_eqv]
      split_ifs <;> rfl
    · rw [if_neg h2, if_neg (show ¬ ι (s.x + m.1) < (BR.of s).x from fun h => h2 ((ι_lt _ _).1 h))]
      simp only [BR.of, ι_le, ι_eqv]
      split_ifs <;> rfl

theorem brStep_log (f : ℝ → ℝ) (tol eps : ℝ) (s : Line.BR) : ∃ u, (Line.brStep f tol eps s).log = u :: s.log := by
  refine ⟨s.x + (Line.brMove tol eps s).1, ?_⟩
  unfold Line.brStep
  dsimp only
  split_ifs <;> rfl

theorem brLoop_log (f : ℝ → ℝ) (tol eps : ℝ) (n : Nat) : ∀ s : Line.BR, ∀ x ∈ s.log, x ∈ (Line.brLoop f tol eps n s).log := by
  induction n with
  | zero => intro s x h; exact h
  | succ n ih =>
    intro s x h
    unfold Line.brLoop
    split
    · refine ih _ _ ?_
      obtain ⟨u, e⟩ := brStep_log f tol eps s
      rw [e]
      exact List.mem_cons_of_mem _ h
    · exact h

theorem brLoop_of {f : ℝ → ℝ} {f' : exact.F → exact.F} (tol eps : ℝ) (n : Nat) : ∀ (s : Line.BR)
    (_ : ∀ x ∈ (Line.brLoop f tol eps n s).log, f' (ι x) = ι (f x)),
    brLoop f' (ι tol) (ι eps) n (BR.of s) = BR.of (Line.brLoop f tol eps n s) := by
  induction n with
  | zero => intro s _; rfl
  | succ n ih =>
    intro s hf
    have hc : brCond (ι tol) (ι eps) (BR.of s) ↔ Line.brCond tol eps s := by
      unfold brCond Line.brCond BR.of
      simp only [ι_sub, ι_mul, ι_add, ι_abs, ι_gt]
    unfold brLoop Line.brLoop
    unfold Line.brLoop at hf
    by_cases h : Line.brCond tol eps s
    · rw [if_pos h] at hf
      rw [if_pos h, if_pos (hc.2 h), brStep_of tol eps s (fun x hx => hf x (brLoop_log _ _ _ _ _ _ hx))]
      exact ih _ hf
    · rw [if_neg h, if_neg (fun h' => h (hc.1 h'))]

/-- Brent's search, for a functor that agrees with `f` where it is evaluated -/
theorem brent_of {f : ℝ → ℝ} {f' : exact.F → exact.F} (a x b fx : ℝ) (maxit : Int) (tol eps : ℝ)
    (hf : ∀ t ∈ (Line.brent f a x b fx maxit tol eps).2.2, f' (ι t) = ι (f t)) :
    brent f' (ι a) (ι x) (ι b) (ι fx) maxit (ι tol) (ι eps) =
      (ι (Line.brent f a x b fx maxit tol eps).1, ι (Line.brent f a x b fx maxit tol eps).2.1,
        (Line.brent f a x b fx maxit tol eps).2.2.map ι) := by
  have h0 : brInit (ι a) (ι x) (ι b) (ι fx) = BR.of (Line.brInit a x b fx) := by
    unfold brInit Line.brInit BR.of
    have l0 : exact.lit 0 = ι 0 := by rw [ι_lit]; norm_num
    rw [l0]; rfl
  unfold brent
  rw [h0, brLoop_of tol eps _ _ hf]
  rfl

/-! ### Vectors -/

/-- a real vector -/
def ιv {n : Nat} (x : Fin n → ℝ) : Pt exact n := fun i => ι (x i)

section vec
variable {n : Nat} (a b : Fin n → ℝ) (t : ℝ)
theorem v_add : vadd (ιv a) (ιv b) = ιv (a + b) := rfl
theorem v_sub : vsub (ιv a) (ιv b) = ιv (a - b) := rfl
theorem v_smulL : smulL (ι t) (ιv a) = ιv (t • a) := rfl
theorem v_smulR : smulR (ιv a) (ι t) = ιv (t • a) := by
  funext i
  exact congrArg ι (mul_comm (a i) t)
theorem v_neg : vneg (ιv a) = ιv (-a) := by
  funext i
  have : exact.lit (-1) = ι (-1) := by rw [ι_lit]; norm_num
  unfold vneg
  rw [this]
  exact congrArg ι (by simp)
theorem v_dot : dot (ιv a) (ιv b) = ι (∑ i, a i * b i) := by
  have l0 : exact.lit 0 = ι 0 := by rw [ι_lit]; norm_num
  have key : ∀ k, k ≤ n → forN k (fun i s => if h : i < n then s + (ιv a) ⟨i, h⟩ * (ιv b) ⟨i, h⟩ else s) (exact.lit 0) =
      ι (∑ i ∈ Finset.range k, if h : i < n then a ⟨i, h⟩ * b ⟨i, h⟩ else 0) := by
    intro k
    induction k with
    | zero => intro _; rw [forN_zero, l0]; simp
    | succ k ih =>
      intro hk
      rw [forN_succ, ih (by omega), dif_pos (by omega), Finset.sum_range_succ, dif_pos (by omega : k < n)]
      rfl
  unfold dot
  rw [key n (le_refl _), Finset.sum_range]
  congr 1
  refine Finset.sum_congr rfl fun i _ => ?_
  rw [dif_pos i.2]
theorem v_nrm : nrm (ιv a) = ι (Simplex.nrm a) := by
  unfold nrm Simplex.nrm
  rw [v_dot]; rfl
end vec

/-! ### DownhillSimplex -/
section simplex
variable {n : Nat}

def Params.of (p : Simplex.Params) : Params exact :=
  ⟨ι p.alpha, ι p.rho, ι p.gamma, ι p.sigma, ι p.epsilon, ι p.zeroEps⟩
def Sx.of (s : Simplex.St n) : Sx exact n := ⟨fun i => ιv (s.simplex i), fun i => ι (s.values i), s.evals⟩
def Scan.of (sc : Simplex.Scan n) : Scan exact n :=
  ⟨sc.secondWorst.elim (-exact.huge) ι, sc.bestval.elim exact.huge ι, sc.best, ιv sc.x0⟩
def Op.of : Simplex.Op n → Op exact n
  | .restart c sp => .restart (ιv c) (ι sp)
  | .restartBest sp => .restartBest (ι sp)
  | .iterate p => .iterate (Params.of p)

theorem upd_v (s : Nat → Fin n → ℝ) (i : Nat) (x : Fin n → ℝ) :
    Function.update (fun j => ιv (s j)) i (ιv x) = fun j => ιv (Function.update s i x j) := by
  funext j
  by_cases h : j = i
  · subst h; simp
  · simp [h]
theorem upd_s (s : Nat → ℝ) (i : Nat) (x : ℝ) :
    Function.update (fun j => ι (s j)) i (ι x) = fun j => ι (Function.update s i x j) := by
  funext j
  by_cases h : j = i
  · subst h; simp
  · simp [h]

theorem forN_of {σ τ : Type} (h : σ → τ) (k : Nat) (b : Nat → σ → σ) (b' : Nat → τ → τ) (hb : ∀ i s, b' i (h s) = h (b i s))
    (s : σ) : forN k b' (h s) = h (forN k b s) := by
  induction k with
  | zero => rfl
  | succ k ih => rw [forN_succ, forN_succ, ih, hb]

theorem put_of (s : Simplex.St n) (i : Nat) (x : Fin n → ℝ) (v : ℝ) : (Sx.of s).put i (ιv x) (ι v) = Sx.of (s.put i x v) := by
  unfold Sx.put Simplex.St.put Sx.of
  simp only [upd_v, upd_s]

theorem getBest_of (v : Nat → ℝ) : getBest n (fun i => ι (v i)) = Simplex.getBest n v := by
  unfold getBest Simplex.getBest
  simp only [ι_lt]
theorem getWorst_of (v : Nat → ℝ) : getWorst n (fun i => ι (v i)) = Simplex.getWorst n v := by
  unfold getWorst Simplex.getWorst
  simp only [ι_lt]

variable {f : (Fin n → ℝ) → ℝ} {f' : Pt exact n → exact.F} (hf : ∀ x, f' (ιv x) = ι (f x))
include hf

theorem restart_of (c : Fin n → ℝ) (sp : ℝ) (s : Simplex.St n) :
    restart f' (ιv c) (ι sp) (Sx.of s) = Sx.of (Simplex.restart f c sp s) := by
  unfold restart Simplex.restart
  dsimp only
  have e1 : forN (n + 1) (fun i m => Function.update m i (ιv c)) (Sx.of s).simplex =
      fun j => ιv (forN (n + 1) (fun i m => Function.update m i c) s.simplex j) :=
    forN_of (fun (m : Nat → Fin n → ℝ) j => ιv (m j)) (n + 1) _ _ (fun i m => upd_v m i c) s.simplex
  rw [e1]
  generalize forN (n + 1) (fun i m => Function.update m i c) s.simplex = S
  have e2 : forN n (fun i (m : Nat → Pt exact n) =>
      Function.update m i (fun j => if (j : Nat) = i then m i j + ι sp else m i j)) (fun j => ιv (S j)) =
      fun j => ιv (forN n (fun i (m : Nat → Fin n → ℝ) =>
        Function.update m i (fun j => if (j : Nat) = i then m i j + sp else m i j)) S j) := by
    refine forN_of (fun (m : Nat → Fin n → ℝ) j => ιv (m j)) n _ _ (fun i m => ?_) S
    rw [← upd_v]
    congr 1
    funext j
    unfold ιv
    by_cases hj : (j : Nat) = i
    · simp only [hj, if_true]; rfl
    · simp only [hj, if_false]
  rw [e2]
  generalize forN n (fun i (m : Nat → Fin n → ℝ) =>
        Function.update m i (fun j => if (j : Nat) = i then m i j + sp else m i j)) S = S'
  have e3 : forN (n + 1) (fun i v => Function.update v i (f' (ιv (S' i)))) (Sx.of s).values =
      fun j => ι (forN (n + 1) (fun i v => Function.update v i (f (S' i))) s.values j) := by
    refine forN_of (fun (m : Nat → ℝ) j => ι (m j)) (n + 1) _ _ (fun i m => ?_) s.values
    rw [hf, upd_s]
  rw [e3]
  rfl

theorem restartBest_of (sp : ℝ) (s : Simplex.St n) :
    restartBest f' (ι sp) (Sx.of s) = Sx.of (Simplex.restartBest f sp s) := by
  unfold restartBest Simplex.restartBest
  have : getBest n (Sx.of s).values = Simplex.getBest n s.values := getBest_of s.values
  rw [this]
  exact restart_of hf _ _ _

theorem shrink_of (sigma : ℝ) (best : Nat) (s : Simplex.St n) :
    shrink f' (ι sigma) best (Sx.of s) = Sx.of (Simplex.shrink f sigma best s) := by
  unfold shrink Simplex.shrink
  refine forN_of Sx.of (n + 1) _ _ (fun i s => ?_) s
  by_cases h : i ≠ best
  · rw [if_pos h, if_pos h]
    have e : vadd ((Sx.of s).simplex best) (smulL (ι sigma) (vsub ((Sx.of s).simplex i) ((Sx.of s).simplex best))) =
        ιv (s.simplex best + sigma • (s.simplex i - s.simplex best)) := rfl
    dsimp only
    rw [e, hf, put_of]
    rfl
  · rw [if_neg h, if_neg h]

omit hf in
theorem scan_of (s : Simplex.St n) (worst : Nat) : scan (Sx.of s) worst = Scan.of (Simplex.scan s worst) := by
  unfold scan Simplex.scan
  have l0 : exact.lit 0 = ι 0 := by rw [ι_lit]; norm_num
  have e0 : ({ secondWorst := -exact.huge, bestval := exact.huge, best := 0, x0 := fun _ => exact.lit 0 } : Scan exact n) =
      Scan.of { secondWorst := none, bestval := none, best := 0, x0 := 0 } := by
    rw [l0]; rfl
  rw [e0]
  refine forN_of Scan.of (n + 1) _ _ (fun i sc => ?_) _
  have c1 : (Sx.of s).values i < (Scan.of sc).bestval ↔ Simplex.ltTop (s.values i) sc.bestval := by
    unfold Scan.of Sx.of
    cases hb : sc.bestval with
    | none => exact iff_of_true (ι_lt_huge _) trivial
    | some b => exact ι_lt _ _
  have c2 : ∀ sc : Simplex.Scan n, (Sx.of s).values i > (Scan.of sc).secondWorst ↔ Simplex.gtBot (s.values i) sc.secondWorst := by
    intro sc
    unfold Scan.of Sx.of
    cases hb : sc.secondWorst with
    | none => exact iff_of_true (ι_gt_huge _) trivial
    | some b => exact ι_gt _ _
  unfold scanStep
  dsimp only
  have m1 : (if (Sx.of s).values i < (Scan.of sc).bestval then { Scan.of sc with bestval := (Sx.of s).values i, best := i } else Scan.of sc) =
      Scan.of (if Simplex.ltTop (s.values i) sc.bestval then { sc with bestval := some (s.values i), best := i } else sc) := by
    by_cases h : Simplex.ltTop (s.values i) sc.bestval
    · rw [if_pos h, if_pos (c1.2 h)]; rfl
    · rw [if_neg h, if_neg (fun h' => h (c1.1 h'))]
  rw [m1]
  generalize (if Simplex.ltTop (s.values i) sc.bestval then { sc with bestval := some (s.values i), best := i } else sc) = sc1
  by_cases hw : i ≠ worst
  · rw [if_pos hw, if_pos hw]
    by_cases h : Simplex.gtBot (s.values i) sc1.secondWorst
    · rw [if_pos h, if_pos ((c2 sc1).2 h)]; rfl
    · rw [if_neg h, if_neg (fun h' => h ((c2 sc1).1 h'))]; rfl
  · rw [if_neg hw, if_neg hw]

theorem findNext_of (p : Simplex.Params) (s : Simplex.St n) :
    findNext f' (Params.of p) (Sx.of s) = Sx.of (Simplex.findNext f p s) := by
  unfold findNext Simplex.findNext
  have hw : getWorst n (Sx.of s).values = Simplex.getWorst n s.values := getWorst_of s.values
  have l1 : exact.lit 1 = ι 1 := by rw [ι_lit]; norm_num
  dsimp only
  rw [hw, scan_of]
  generalize Simplex.getWorst n s.values = worst
  generalize Simplex.scan s worst = sc
  have ex0 : smulR (Scan.of sc).x0 (exact.lit 1 / exact.lit (n : ℚ)) = ιv ((1 / (n : ℝ)) • sc.x0) := by
    funext i
    have hn : (n : ℝ) ≠ 0 := by
      have := i.pos
      positivity
    have : exact.lit (n : ℚ) = ι n := by rw [ι_lit]; norm_num
    rw [l1, this, ι_div _ hn]
    exact congrFun (v_smulR sc.x0 (1 / (n:ℝ))) i
  rw [ex0]
  generalize (1 / (n : ℝ)) • sc.x0 = x0
  have exr : vsub (smulL (exact.lit 1 + (Params.of p).alpha) (ιv x0)) (smulL (Params.of p).alpha ((Sx.of s).simplex worst)) =
      ιv ((1 + p.alpha) • x0 - p.alpha • s.simplex worst) := by rw [l1]; rfl
  have exc : vsub (smulL (exact.lit 1 + (Params.of p).gamma) (ιv x0)) (smulL (Params.of p).gamma ((Sx.of s).simplex worst)) =
      ιv ((1 + p.gamma) • x0 - p.gamma • s.simplex worst) := by rw [l1]; rfl
  rw [exr, exc]
  generalize (1 + p.alpha) • x0 - p.alpha • s.simplex worst = xr
  generalize (1 + p.gamma) • x0 - p.gamma • s.simplex worst = xc
  have exe : vadd (smulL (Params.of p).rho (ιv xr)) (smulL (exact.lit 1 - (Params.of p).rho) (ιv x0)) =
      ιv (p.rho • xr + (1 - p.rho) • x0) := by rw [l1]; rfl
  rw [exe]
  generalize p.rho • xr + (1 - p.rho) • x0 = xe
  rw [hf, hf, hf]
  have c1 : ι (f xr) < (Scan.of sc).bestval ↔ Simplex.ltTop (f xr) sc.bestval := by
    unfold Scan.of
    cases hb : sc.bestval with
    | none => exact iff_of_true (ι_lt_huge _) trivial
    | some b => exact ι_lt _ _
  have c2 : ι (f xr) < (Scan.of sc).secondWorst ↔ Simplex.ltBot (f xr) sc.secondWorst := by
    unfold Scan.of
    cases hb : sc.secondWorst with
    | none => exact iff_of_false (ι_not_lt_huge _) id
    | some b => exact ι_lt _ _
  have c3 : ι (f xr) < (Sx.of s).values worst ↔ f xr < s.values worst := ι_lt _ _
  simp only [c1, c2, c3, ι_lt, ι_le]
  by_cases h1 : Simplex.ltTop (f xr) sc.bestval
  · rw [if_pos h1, if_pos h1]
    by_cases h2 : f xe < f xr
    · rw [if_pos h2, if_pos h2]
      exact put_of { s with evals := s.evals + 1 + 1 } _ _ _
    · rw [if_neg h2, if_neg h2]
      exact put_of { s with evals := s.evals + 1 + 1 } _ _ _
  · rw [if_neg h1, if_neg h1]
    by_cases h2 : Simplex.ltBot (f xr) sc.secondWorst
    · rw [if_pos h2, if_pos h2]
      exact put_of { s with evals := s.evals + 1 } _ _ _
    · rw [if_neg h2, if_neg h2]
      by_cases h3 : f xr < s.values worst
      · rw [if_pos h3, if_pos h3]
        by_cases h4 : f xc ≤ f xr
        · rw [if_pos h4, if_pos h4]
          exact put_of { s with evals := s.evals + 1 + 1 } _ _ _
        · rw [if_neg h4, if_neg h4]
          exact shrink_of hf p.sigma sc.best { s with evals := s.evals + 1 + 1 }
      · rw [if_neg h3, if_neg h3]
        exact shrink_of hf p.sigma sc.best { s with evals := s.evals + 1 }

omit hf in
theorem finished_of (p : Simplex.Params) (s : Simplex.St n) : finished (Params.of p) (Sx.of s) = Simplex.finished p s := by
  unfold finished Simplex.finished
  have hb : getBest n (Sx.of s).values = Simplex.getBest n s.values := getBest_of s.values
  have hw : getWorst n (Sx.of s).values = Simplex.getWorst n s.values := getWorst_of s.values
  dsimp only
  rw [hb, hw]
  have e1 : nrm (vsub ((Sx.of s).simplex (Simplex.getBest n s.values)) ((Sx.of s).simplex (Simplex.getWorst n s.values))) =
      ι (Simplex.nrm (s.simplex (Simplex.getBest n s.values) - s.simplex (Simplex.getWorst n s.values))) := v_nrm _
  have e2 : nrm ((Sx.of s).simplex (Simplex.getBest n s.values)) = ι (Simplex.nrm (s.simplex (Simplex.getBest n s.values))) :=
    v_nrm _
  rw [e1, e2]
  generalize Simplex.nrm (s.simplex (Simplex.getBest n s.values) - s.simplex (Simplex.getWorst n s.values)) = span
  generalize Simplex.nrm (s.simplex (Simplex.getBest n s.values)) = scale
  have : (ι span / ι scale < (Params.of p).epsilon ∨ ι span < (Params.of p).zeroEps) ↔
      ((scale ≠ 0 ∧ span / scale < p.epsilon) ∨ span < p.zeroEps) := by
    refine or_congr ?_ (ι_lt _ _)
    by_cases h : scale = 0
    · subst h
      rw [ι_div0]
      exact iff_of_false (nan_lt_left _) (fun h => h.1 rfl)
    · rw [ι_div _ h]
      exact (ι_lt _ _).trans (by simp [h])
  by_cases h : (scale ≠ 0 ∧ span / scale < p.epsilon) ∨ span < p.zeroEps
  · rw [if_pos h, if_pos (this.2 h)]
  · rw [if_neg h, if_neg (fun h' => h (this.1 h'))]

end simplex

/-! ### ConjugateGradient -/

/-- a value that may be NaN -/
def ιo : Option ℝ → exact.F
  | some x => ι x
  | none => xnan

theorem ιo_nan (o : Option ℝ) : NaN (ιo o) ↔ o = none := by
  cases o with
  | none => exact iff_of_true rfl rfl
  | some x => exact iff_of_false (ι_nan x) (by simp)
theorem ιo_lt (o o' : Option ℝ) : ιo o < ιo o' ↔ CG.ltO o o' := by
  cases o with
  | none => exact iff_of_false (nan_lt_left _) id
  | some x =>
    cases o' with
    | none => exact iff_of_false (nan_lt_right _) id
    | some y => exact ι_lt _ _

def Bracket.of (k : CG.Bracket) : Bracket exact := ⟨ι k.a, ιo k.av, ι k.b, ιo k.bv, ι k.c, ιo k.cv⟩
/-- outcomes; the exact model says nothing about the rest of a search that meets NaN -/
def ResOf {α β : Type} (h : α → β) : CG.Res α → Res β → Prop
  | .ret a, r => r = .ret (h a)
  | .running, r => r = .running
  | .assertFail, r => r = .assertFail
  | .nanInBrent, _ => True

theorem resBind {α β γ δ : Type} {h : α → β} {h' : γ → δ} {r : CG.Res α} {r' : Res β} (e : ResOf h r r')
    {k : α → CG.Res γ} {k' : β → Res δ} (hk : ∀ a, r = .ret a → ResOf h' (k a) (k' (h a))) : ResOf h' (r.bind k) (r'.bind k') := by
  cases r with
  | ret a => cases e; exact hk a rfl
  | running => cases e; rfl
  | assertFail => cases e; rfl
  | nanInBrent => trivial

section cg
variable {n : Nat} {φ : ℝ → Option ℝ} {φ' : exact.F → exact.F} (hφ : ∀ t, φ' (ι t) = ιo (φ t))
include hφ

omit hφ in
theorem lhalf (x : ℝ) : ι x * exact.lit (1 / 2) = ι (x / 2) := by
  rw [ι_lit, ι_mul]; congr 1; push_cast; ring

theorem halveNan_of (fuel : Nat) : ∀ l : ℝ,
    ResOf (fun r : ℝ × ℝ => (ι r.1, ι r.2)) (CG.halveNan φ fuel l) (halveNan φ' fuel (ι l)) := by
  induction fuel with
  | zero => intro l; rfl
  | succ k ih =>
    intro l
    unfold CG.halveNan halveNan
    rw [hφ]
    cases h : φ l with
    | none => rw [if_pos ((ιo_nan none).2 rfl), lhalf]; exact ih _
    | some v => rw [if_neg (fun h => by simpa using (ιo_nan (some v)).1 h)]; rfl

theorem backLoop_of (lg bad : ℝ) (fuel : Nat) : ∀ l : ℝ,
    ResOf (fun r : ℝ × ℝ => (ι r.1, ι r.2)) (CG.backLoop φ lg bad fuel l) (backLoop φ' (ι lg) (ι bad) fuel (ι l)) := by
  induction fuel with
  | zero => intro l; rfl
  | succ k ih =>
    intro l
    unfold CG.backLoop backLoop
    dsimp only
    rw [lhalf, ι_sub, ι_mul, ι_add, hφ]
    cases h : φ (lg + (bad - lg) * (l / 2)) with
    | none => rw [if_pos ((ιo_nan none).2 rfl)]; exact ih _
    | some v => rw [if_neg (fun h => by simpa using (ιo_nan (some v)).1 h)]; rfl

theorem downLoop_of (fuel : Nat) : ∀ l a av bv : ℝ,
    ResOf Bracket.of (CG.downLoop φ fuel l a av bv) (downLoop φ' fuel (ι l) (ι a) (ι av) (ι bv)) := by
  induction fuel with
  | zero => intros; rfl
  | succ k ih =>
    intro l a av bv
    have l2 : exact.lit 2 = ι 2 := by rw [ι_lit]; norm_num
    have l1 : exact.lit 1 = ι 1 := by rw [ι_lit]; norm_num
    unfold CG.downLoop downLoop
    dsimp only
    rw [l2, l1, ι_mul, hφ]
    cases h : φ (l * 2) with
    | none =>
      rw [if_pos ((ιo_nan none).2 rfl)]
      exact resBind (backLoop_of hφ _ _ _ _) fun r _ => rfl
    | some v =>
      rw [if_neg (fun h => by simpa using (ιo_nan (some v)).1 h)]
      dsimp only
      by_cases hc : v > bv
      · rw [if_pos hc, if_pos (show ιo (some v) > ι bv from (ι_gt _ _).2 hc)]; rfl
      · rw [if_neg hc, if_neg (show ¬ ιo (some v) > ι bv from fun h => hc ((ι_gt _ _).1 h))]
        exact ih _ _ _ _

theorem upLoop_of (av : Option ℝ) (zeps : ℝ) (fuel : Nat) : ∀ (l c : ℝ) (cv : Option ℝ),
    ResOf Bracket.of (CG.upLoop φ av zeps fuel l c cv) (upLoop φ' (ιo av) (ι zeps) fuel (ι l) (ι c) (ιo cv)) := by
  induction fuel with
  | zero => intros; rfl
  | succ k ih =>
    intro l c cv
    have l0 : exact.lit 0 = ι 0 := by rw [ι_lit]; norm_num
    unfold CG.upLoop upLoop
    dsimp only
    rw [lhalf, hφ, l0]
    by_cases h : CG.ltO (φ (l / 2)) av
    · rw [if_pos h, if_pos ((ιo_lt _ _).2 h)]; rfl
    · rw [if_neg h, if_neg (fun h' => h ((ιo_lt _ _).1 h'))]
      by_cases h2 : l / 2 < zeps
      · rw [if_pos h2, if_pos ((ι_lt _ _).2 h2)]
        change Res.ret (Bracket.zeros exact) = _
        unfold Bracket.zeros
        rw [l0]; rfl
      · rw [if_neg h2, if_neg (fun h' => h2 ((ι_lt _ _).1 h'))]
        exact ih _ _ _

theorem bracketForward_of (fuel : Nat) (av : Option ℝ) (l0 zeps : ℝ) :
    ResOf Bracket.of (CG.bracketForward φ fuel av l0 zeps) (bracketForward φ' fuel (ιo av) (ι l0) (ι zeps)) := by
  have z0 : exact.lit 0 = ι 0 := by rw [ι_lit]; norm_num
  unfold CG.bracketForward bracketForward
  refine resBind (halveNan_of hφ _ _) fun r _ => ?_
  dsimp only
  rw [z0]
  cases av with
  | none =>
    rw [if_neg (show ¬ ι r.2 < ιo none from nan_lt_right _)]
    exact upLoop_of hφ none zeps fuel r.1 r.1 (some r.2)
  | some a =>
    dsimp only
    by_cases h : r.2 < a
    · rw [if_pos h, if_pos (show ι r.2 < ιo (some a) from (ι_lt _ _).2 h)]
      exact downLoop_of hφ fuel _ _ _ _
    · rw [if_neg h, if_neg (show ¬ ι r.2 < ιo (some a) from fun h' => h ((ι_lt _ _).1 h'))]
      exact upLoop_of hφ (some a) zeps fuel r.1 r.1 (some r.2)
end cg

section cgst
variable {n : Nat}

def CG.of (s : TooN.CG.St n) : CG exact n where
  g := ιv s.g
  h := ιv s.h
  minusH := ιv s.minusH
  oldG := ιv s.oldG
  oldH := ιv s.oldH
  x := ιv s.x
  oldX := ιv s.oldX
  y := ιo s.y
  oldY := ιo s.oldY
  tolerance := ι s.tolerance
  epsilon := ι s.epsilon
  maxIterations := s.maxIterations
  lambda0 := ι s.lambda0
  lsTolerance := ι s.lsTolerance
  lsEpsilon := ι s.lsEpsilon
  lsMaxIterations := s.lsMaxIterations
  bracketEpsilon := ι s.bracketEpsilon
  iterations := s.iterations

variable {f : (Fin n → ℝ) → Option ℝ} {f' : Pt exact n → exact.F} (hf : ∀ x, f' (ιv x) = ιo (f x))
include hf

theorem line_of (s : TooN.CG.St n) (t : ℝ) : line f' (CG.of s) (ι t) = ιo (TooN.CG.line f s t) := hf _

omit hf in
theorem ite_res {α β : Type} {h : α → β} {p p' : Prop} {_ : Decidable p} {_ : Decidable p'} (e : p' ↔ p) {a b : TooN.CG.Res α} {a' b' : Res β}
    (h1 : p → ResOf h a a') (h2 : ¬ p → ResOf h b b') : ResOf h (if p then a else b) (if p' then a' else b') := by
  by_cases hp : p
  · rw [if_pos hp, if_pos (e.2 hp)]; exact h1 hp
  · rw [if_neg hp, if_neg (fun h => hp (e.1 h))]; exact h2 hp

theorem cgNext_of (fuel : Nat) (s : TooN.CG.St n) : ResOf CG.of (TooN.CG.findNext f fuel s) (cgNext f' fuel (CG.of s)) := by
  have z0 : exact.lit 0 = ι 0 := by rw [ι_lit]; norm_num
  unfold TooN.CG.findNext cgNext
  dsimp only
  refine resBind (bracketForward_of (line_of hf s) fuel s.y s.lambda0 s.bracketEpsilon) fun k _ => ?_
  rw [z0]
  refine ite_res (and_congr (ι_eqv _ _) (and_congr (ι_eqv _ _) (ι_eqv _ _))) (fun _ => ?_) fun _ => ?_
  · exact (rfl : _ = _)
  refine ite_res (ι_lt _ _) (fun _ => ?_) fun _ => ?_
  · unfold ResOf
    have e : smulR (CG.of s).h (Bracket.of k).c = ιv (k.c • s.h) := v_smulR _ _
    rw [e]
    rfl
  refine ite_res (not_congr (and_congr (ι_lt _ _) (ι_lt _ _))) (fun _ => rfl) fun _ => ?_
  refine ite_res (not_congr (and_congr (ιo_lt _ _) (ιo_lt _ _))) (fun _ => rfl) fun hb => ?_
  obtain ⟨hb1, hb2⟩ := not_not.1 hb
  obtain ⟨bv, hbv⟩ : ∃ bv, k.bv = some bv := by
    cases h : k.bv with
    | none => rw [h] at hb1; exact hb1.elim
    | some v => exact ⟨v, rfl⟩
  have e1 : (Bracket.of k).bv = ι bv := by unfold Bracket.of; rw [hbv]; rfl
  rw [e1, hbv]
  simp only [Option.getD_some]
  generalize hm : Line.brent (fun t => (TooN.CG.line f s t).getD 0) k.a k.b k.c bv s.lsMaxIterations s.lsTolerance s.lsEpsilon = m
  by_cases hn : ∃ t ∈ m.2.2, TooN.CG.line f s t = none
  · rw [if_pos hn]; trivial
  rw [if_neg hn]
  have hbr := brent_of (f := fun t => (TooN.CG.line f s t).getD 0) (f' := line f' (CG.of s)) k.a k.b k.c bv
    s.lsMaxIterations s.lsTolerance s.lsEpsilon (by
      rw [hm]
      intro t ht
      rw [line_of hf]
      cases h : TooN.CG.line f s t with
      | none => exact absurd ⟨t, ht, h⟩ hn
      | some v => rfl)
  have hbr' : brent (line f' (CG.of s)) (Bracket.of k).a (Bracket.of k).b (Bracket.of k).c (ι bv) (CG.of s).lsMaxIterations
      (CG.of s).lsTolerance (CG.of s).lsEpsilon = (ι m.1, ι m.2.1, m.2.2.map ι) := by rw [← hm]; exact hbr
  rw [hbr']
  refine ite_res (not_congr (and_congr (ι_ge _ _) (ι_le _ _))) (fun _ => rfl) fun _ => ?_
  refine ite_res (not_congr (ι_le _ _)) (fun _ => rfl) fun _ => ?_
  rfl

omit hf in
theorem cgFinished_of (s : TooN.CG.St n) : cgFinished (CG.of s) ↔ TooN.CG.finished s := by
  have l2 : exact.lit 2 = ι 2 := by rw [ι_lit]; norm_num
  unfold cgFinished TooN.CG.finished
  refine or_congr Iff.rfl ?_
  unfold CG.of
  dsimp only
  rw [l2]
  cases s.y with
  | none => exact iff_of_false (fun h => nan_le_left _ h) id
  | some y =>
    cases s.oldY with
    | none => exact iff_of_false (fun h => nan_le_left _ h) id
    | some y' => exact ι_le _ _

omit hf in
theorem updatePR_of (s : TooN.CG.St n) (grad : Fin n → ℝ) (s' : TooN.CG.St n) (h : TooN.CG.updatePR s grad = some s') :
    updatePR (CG.of s) (ιv grad) = CG.of s' := by
  unfold TooN.CG.updatePR at h
  split at h
  · cases h
  · rename_i hne
    cases h
    unfold updatePR
    have e1 : dot (ιv grad) (ιv grad) = ι (grad ⬝ᵥ grad) := v_dot _ _
    have e2 : dot (CG.of s).g (ιv grad) = ι (s.g ⬝ᵥ grad) := v_dot _ _
    have e3 : dot (CG.of s).g (CG.of s).g = ι (s.g ⬝ᵥ s.g) := v_dot _ _
    rw [e1, e2, e3, ι_sub, ι_div _ hne]
    generalize (grad ⬝ᵥ grad - s.g ⬝ᵥ grad) / (s.g ⬝ᵥ s.g) = gamma
    have e4 : vadd (ιv grad) (smulL (ι gamma) (CG.of s).h) = ιv (grad + gamma • s.h) := rfl
    dsimp only
    rw [e4, v_neg]
    rfl
end cgst

/-! ### The theorems -/

/-- **C74** (one program: golden section) -/
theorem c74_exact_golden {f : ℝ → ℝ} {f' : exact.F → exact.F} (hf : ∀ x, f' (ι x) = ι (f x)) (fuel : Nat) (a b c fb : ℝ)
    (maxit : Int) (tol : ℝ) :
    goldenSection f' fuel (ι a) (ι b) (ι c) (ι fb) maxit (ι tol) =
      (Line.goldenSection f fuel a b c fb maxit tol).map fun r => (ι r.1, ι r.2.1, r.2.2.map ι) :=
  exact_golden_eq hf fuel a b c fb maxit tol

/-- **C74** (one program: Brent) -/
theorem c74_exact_brent {f : ℝ → ℝ} {f' : exact.F → exact.F} (hf : ∀ x, f' (ι x) = ι (f x)) (a x b fx : ℝ) (maxit : Int)
    (tol eps : ℝ) :
    brent f' (ι a) (ι x) (ι b) (ι fx) maxit (ι tol) (ι eps) =
      (ι (Line.brent f a x b fx maxit tol eps).1, ι (Line.brent f a x b fx maxit tol eps).2.1,
        (Line.brent f a x b fx maxit tol eps).2.2.map ι) :=
  brent_of a x b fx maxit tol eps fun t _ => hf t

/-- **C74** (one program: the simplex method) every history of client operations, and every returned "finished" -/
theorem c74_exact_simplex {n : Nat} {f : (Fin n → ℝ) → ℝ} {f' : Pt exact n → exact.F} (hf : ∀ x, f' (ιv x) = ι (f x))
    (ops : List (Simplex.Op n)) (s : Simplex.St n) (p : Simplex.Params) :
    runOps f' (ops.map Op.of) (Sx.of s) = Sx.of (Simplex.runOps f ops s) ∧
    finished (Params.of p) (Sx.of s) = Simplex.finished p s := by
  refine ⟨?_, finished_of p s⟩
  induction ops generalizing s with
  | nil => rfl
  | cons o os ih =>
    have : (Op.of o).run f' (Sx.of s) = Sx.of (o.run f s) := by
      cases o with
      | restart c sp => exact restart_of hf c sp s
      | restartBest sp => exact restartBest_of hf sp s
      | iterate p => exact findNext_of hf p s
    change runOps f' (os.map Op.of) ((Op.of o).run f' (Sx.of s)) = Sx.of (Simplex.runOps f os (o.run f s))
    rw [this, ih]

/-- **C74** (one program: conjugate gradients) construction, one iteration and the returned value, as far as the exact model
goes: it stops at a division by zero and when Brent's search meets a NaN -/
theorem c74_exact_cg {n : Nat} {f : (Fin n → ℝ) → Option ℝ} {f' : Pt exact n → exact.F} (hf : ∀ x, f' (ιv x) = ιo (f x))
    {d : (Fin n → ℝ) → Fin n → ℝ} {d' : Pt exact n → Pt exact n} (hd : ∀ x, d' (ιv x) = ιv (d x))
    (fuel : Nat) (s : TooN.CG.St n) (start : Fin n → ℝ) :
    cgConstruct (CG.of s) (ιv start) f' d' = CG.of (TooN.CG.construct s start f d) ∧
    match TooN.CG.iterate f d fuel s with
    | .ret (some s', b) => cgIterate f' d' fuel (CG.of s) = .ret (CG.of s', b)
    | .ret (none, _) => True
    | .running => cgIterate f' d' fuel (CG.of s) = .running
    | .assertFail => cgIterate f' d' fuel (CG.of s) = .assertFail
    | .nanInBrent => True := by
  constructor
  · unfold cgConstruct cgInit TooN.CG.construct TooN.CG.init
    rw [hf, hd, v_neg]
    have l1 : exact.lit 1 = ι 1 := by rw [ι_lit]; norm_num
    have l2 : exact.lit (1 / 2 ^ 26) = ι (2⁻¹ ^ 26) := by rw [ι_lit]; norm_num
    have l3 : exact.lit (1 / 10 ^ 20) = ι (10⁻¹ ^ 20) := by rw [ι_lit]; norm_num
    rw [l1, l2, l3]
    rfl
  · have h := cgNext_of hf fuel s
    unfold TooN.CG.iterate cgIterate
    cases e : TooN.CG.findNext f fuel s with
    | running => rw [e] at h; rw [show cgNext f' fuel (CG.of s) = .running from h]; rfl
    | assertFail => rw [e] at h; rw [show cgNext f' fuel (CG.of s) = .assertFail from h]; rfl
    | nanInBrent => trivial
    | ret s1 =>
      rw [e] at h
      rw [show cgNext f' fuel (CG.of s) = .ret (CG.of s1) from h]
      unfold TooN.CG.Res.bind Res.bind
      dsimp only
      by_cases hfin : TooN.CG.finished s1
      · rw [if_pos hfin, if_pos ((cgFinished_of s1).2 hfin)]
      · rw [if_neg hfin, if_neg (fun h => hfin ((cgFinished_of s1).1 h))]
        cases e2 : TooN.CG.updatePR s1 (d s1.x) with
        | none => trivial
        | some s2 =>
          dsimp only
          rw [show (CG.of s1).x = ιv s1.x from rfl, hd, updatePR_of s1 _ s2 e2]

/-- a functor on machine numbers that agrees with x² on numbers, and one on points -/
example : ∃ f' : exact.F → exact.F, ∀ x, f' (ι x) = ι (x ^ 2) :=
  ⟨fun x => x * x, fun x => congrArg ι (by ring)⟩
example : ∃ f' : Pt exact 2 → exact.F, ∀ x : Fin 2 → ℝ, f' (ιv x) = ι (x 0 + x 1) :=
  ⟨fun x => x 0 + x 1, fun _ => rfl⟩

end
end Exact
end TooN.Mach
