import Verif.Proof.Flags
import Verif.Props.Param
import Verif.Props.FloatElim
import Verif.Props.FloatOps
import Verif.Props.Special
import Verif.Model.Special
/-!
# C77: without overflow and underflow, `float` and `double` obey the standard model

The rounding-error theorems C61–C64, C69–C71 are about the standard model, in which the exponent is unbounded.  Here the same
programs are run on the actual formats, with subnormal numbers, infinities and NaN, together with the status flags of IEEE-754.
The flags do not disturb the computation, and a result without flags is the result of the standard model, so all those theorems
hold for it.
-/
set_option linter.unusedSectionVars false
namespace TooN.Special
open TooN.Ops TooN.Elim
open scoped Classical
variable {G : Grid} {und : ℝ → Prop} {ρ : Rounding}

/-- **C77** (rounding) For every precision and exponent range: the rounding of the format is that of the standard model except for
tiny results that are not representable; every finite number of the format is a number of the standard model; and the sum
of two numbers of the format is never affected. -/
theorem c77_rounding (p : ℕ) (emin : ℤ) (hp : 2 ≤ p) (x y z : ℝ) :
    (rndIEEE p emin z ≠ rndNearest p z → |z| < (2:ℝ) ^ (emin + p - 1) ∧ rndIEEE p emin z ≠ z) ∧
    (rndIEEE p emin x = x → rndNearest p x = x) ∧
    (rndIEEE p emin x = x → rndIEEE p emin y = y → rndIEEE p emin (x + y) = rndNearest p (x + y)) :=
  ⟨fun h => by
    by_contra hh
    exact h (agree_of_not_underflow (by omega) hh), rep_standard (by omega), agree_add (by omega)⟩

theorem erel_comp {K K' K'' : Type} {R : K' → K'' → Prop} (g : K → K') (f : K → K'') (h : ∀ x, R (g x) (f x)) (ρ0 : Expr.CEnv K) :
    Expr.ERel R (ρ0.map g) (ρ0.map f) := by
  have ho : ∀ o : Option K, Option.Rel R (o.map g) (o.map f) := by
    intro o
    cases o with
    | none => exact .none
    | some x => exact .some (h x)
  refine ⟨fun i => ?_, fun i => ?_⟩
  · change Option.Rel _ ((ρ0.v i).map (Expr.VB.map g)) ((ρ0.v i).map (Expr.VB.map f))
    cases ρ0.v i with
    | none => exact .none
    | some b => exact .some ⟨rfl, rfl, fun i => ho _⟩
  · change Option.Rel _ ((ρ0.m i).map (Expr.MB.map g)) ((ρ0.m i).map (Expr.MB.map f))
    cases ρ0.m i with
    | none => exact .none
    | some b => exact .some ⟨rfl, rfl, rfl, rfl, fun i j => ho _⟩

theorem erel_val (ρ0 : Expr.CEnv (XF G)) :
    Expr.ERel (fun (x : XF G) (i : FX G und) => i.val = x) ρ0 (ρ0.map FX.inp) := by
  have := erel_comp (R := fun (x : XF G) (i : FX G und) => i.val = x) id FX.inp (fun _ => rfl) ρ0
  have e : ρ0.map id = ρ0 := by
    obtain ⟨v, m⟩ := ρ0
    have h1 : (Expr.VB.map (id : XF G → XF G)) = id := by
      funext b
      change (⟨b.S, b.n, fun i => (b.cell i).map id⟩ : Expr.VB (XF G)) = b
      simp
    have h2 : (Expr.MB.map (id : XF G → XF G)) = id := by
      funext b
      change (⟨b.R, b.C, b.r, b.c, fun i j => (b.cell i j).map id⟩ : Expr.MB (XF G)) = b
      simp
    change (⟨fun i => (v i).map (Expr.VB.map id), fun i => (m i).map (Expr.MB.map id)⟩ : Expr.CEnv (XF G)) = _
    rw [h1, h2]
    simp
  rwa [e] at this

/-- **C77** (flags) Observing the flags changes nothing: every program over vectors and matrices does the same and leaves the same
values. -/
theorem c77_flags (und : ℝ → Prop) (ρ0 : Expr.CEnv (XF G)) (p : List (Expr.Stmt (XF G))) :
    Expr.ResRel (Expr.ERel fun (x : XF G) (i : FX G und) => i.val = x)
      (Expr.execP ρ0 p) (Expr.execP (ρ0.map FX.inp) (p.map (Expr.Stmt.map FX.inp))) :=
  Expr.c67_prog respects_val (fun _ => rfl) (erel_val ρ0) p

/-- **C77** (programs) Every element that a program computes without raising a flag is the element that the same program computes
in the standard model; and the program has the same fate. -/
theorem c77_program (hA : Agree G und ρ) (ρ0 : Expr.CEnv (XF G)) (p : List (Expr.Stmt (XF G))) :
    Expr.ResRel (Expr.ERel fun (i : FX G und) (f : Fl ρ) => i.ok → ∃ h, i.val = .fin f.val h)
      (Expr.execP (ρ0.map FX.inp) (p.map (Expr.Stmt.map FX.inp)))
      (Expr.execP (ρ0.map (toFl hA)) (p.map (Expr.Stmt.map (toFl hA)))) := by
  have hf : ∀ i : FX G und, Same i (toFl hA i.val) := by
    intro i hi
    obtain ⟨v, hv, e⟩ := fin_of (i.fin hi)
    rw [e]
    exact ⟨hv, rfl⟩
  have h := Expr.c67_prog (respects_same hA) hf
    (erel_comp (R := fun (i : FX G und) (f : Fl ρ) => Same i f) FX.inp (toFl hA) (fun x => same_inp hA x) ρ0)
    (p.map (Expr.Stmt.map FX.inp))
  rw [prog_map_map] at h
  exact h

/-- **C77** (expressions) likewise for the value of an expression -/
theorem c77_expr (hA : Agree G und ρ) (ρ0 : Expr.CEnv (XF G)) {k : Expr.Knd} (e : Expr.Ex (XF G) k) :
    Expr.ResRel (Expr.CRel fun (i : FX G und) (f : Fl ρ) => i.ok → ∃ h, i.val = .fin f.val h)
      (Expr.exec (ρ0.map FX.inp) (e.map FX.inp)) (Expr.exec (ρ0.map (toFl hA)) (e.map (toFl hA))) := by
  have hf : ∀ i : FX G und, Same i (toFl hA i.val) := by
    intro i hi
    obtain ⟨v, hv, e⟩ := fin_of (i.fin hi)
    rw [e]
    exact ⟨hv, rfl⟩
  have h := Expr.c67_expr (respects_same hA) hf
    (erel_comp (R := fun (i : FX G und) (f : Fl ρ) => Same i f) FX.inp (toFl hA) (fun x => same_inp hA x) ρ0)
    (e.map FX.inp)
  rw [ex_map_map] at h
  exact h

/-- **C77** (solver) If `gaussian_elimination` raises no flag, it does not divide by zero, it chooses the pivots of the standard model
and returns its result. -/
theorem c77_solve (hA : Agree G und ρ) (n nc : Nat) (hnc : 1 ≤ nc) (A b x : Mat (XF G)) (x' : Mat (Fl ρ))
    (hok : ∀ r q, r < n → q < nc → (gaussElimT (fun a f x => a - f * x) n nc (fun r c => (FX.inp (A r c) : FX G und))
      (fun r c => FX.inp (b r c)) (fun r c => FX.inp (x r c)) r q).ok) :
    ∃ X, gaussElim n nc (fun r c => toFl hA (A r c)) (fun r c => toFl hA (b r c)) x' = some X ∧
      ∀ r q, r < n → q < nc → ∃ h, gaussElimT (fun a f x => a - f * x) n nc A b x r q = .fin (X r q).val h :=
  solve_same hA n nc hnc A b x x' hok

/-- **C77** (solver) So without flags the solution computed in the format is finite and solves a system close to the given one. -/
theorem c77_solve_accurate (hA : Agree G und ρ) (n nc : Nat) (hu : ((3 * n + 1 : ℕ) : ℝ) * ρ.u < 1)
    (a : Mat ℝ) (b : Mat ℝ) (ha : ∀ r c, G.rnd (a r c) = a r c ∧ |a r c| ≤ G.big) (hb : ∀ r q, G.rnd (b r q) = b r q ∧ |b r q| ≤ G.big)
    (x : Mat (XF G))
    (hok : ∀ r q, r < n → q < nc → (gaussElimT (fun a f x => a - f * x) n nc (fun r c => (FX.inp (.fin (a r c) (ha r c)) : FX G und))
      (fun r c => FX.inp (.fin (b r c) (hb r c))) (fun r c => FX.inp (x r c)) r q).ok)
    (M : ℝ) (hM : ∀ r c, r < n → c < n → |a r c| ≤ M) (q : ℕ) (hq : q < nc) :
    ∃ (y : Vec ℝ) (E : Mat ℝ),
      (∀ r, r < n → ∃ h, gaussElimT (fun a f x => a - f * x) n nc (fun r c => XF.fin (a r c) (ha r c))
        (fun r q => .fin (b r q) (hb r q)) x r q = .fin (y r) h) ∧
      (∀ r c, r < n → c < n → |E r c| ≤ gam ρ.u (3*n+1) * (2^n * (1+ρ.u)^(4*n+2) * M)) ∧
      ∀ r, r < n → ∑ c ∈ Finset.range n, (a r c + E r c) * y c = b r q := by
  obtain ⟨X, h1, h2⟩ := solve_same hA n nc (by omega) _ _ x (fun _ _ => 0) hok
  obtain ⟨E, hE, h3⟩ := c63_stable n nc hu _ _ _ X h1 M hM q hq
  exact ⟨fun r => (X r q).val, E, fun r hr => h2 r q hr hq, hE, h3⟩

/-! ### Ranges without overflow and underflow -/

theorem ofReal_ok {z : ℝ} (h : |G.rnd z| ≤ G.big) : XF.ofReal G z = .fin (G.rnd z) ⟨G.idem z, h⟩ := by
  unfold XF.ofReal
  rw [dif_pos ⟨(abs_le.1 h).2, (abs_le.1 h).1⟩]

theorem rnd_abs_le (ρ : Rounding) (z : ℝ) : |ρ.rnd z| ≤ (1 + ρ.u) * |z| := by
  have h := ρ.err z
  have : |ρ.rnd z| ≤ |ρ.rnd z - z| + |z| := by
    have := abs_add_le (ρ.rnd z - z) z
    simpa using this
  linarith

theorem dot_same (hA : Agree G und ρ) (n : ℕ) {a b : Vec (FX G und)} {a' b' : Vec (Fl ρ)} (ha : ∀ i, Same (a i) (a' i))
    (hb : ∀ i, Same (b i) (b' i)) : Same (dot n a b) (dot n a' b') := by
  unfold dot
  induction n with
  | zero => exact same_zero
  | succ n ih =>
    rw [forN_succ, forN_succ]
    exact same_add hA ih (same_mul hA (ha n) (hb n))

theorem dot_val (n : ℕ) (a b : Vec (FX G und)) : (dot n a b).val = dot n (fun i => (a i).val) (fun i => (b i).val) := by
  unfold dot
  induction n with
  | zero => rfl
  | succ n ih =>
    rw [forN_succ, forN_succ, ← ih]
    rfl

/-- the partial sums of a dot product in range -/
theorem dot_in_range (hA : Agree G und ρ) (n : ℕ) (B : ℝ) (hB : 0 ≤ B) (hbig : n * (1 + ρ.u) ^ (n + 1) * B ≤ G.big)
    (x y : Vec ℝ) (hx : ∀ i, G.rnd (x i) = x i ∧ |x i| ≤ G.big) (hy : ∀ i, G.rnd (y i) = y i ∧ |y i| ≤ G.big)
    (hxy : ∀ i, i < n → |x i * y i| ≤ B ∧ ¬ und (x i * y i)) :
    ∀ k, k ≤ n → (dot k (fun i => (FX.inp (.fin (x i) (hx i)) : FX G und)) (fun i => FX.inp (.fin (y i) (hy i)))).ok ∧
      |(dot k (fun i => toFl hA (.fin (x i) (hx i))) (fun i => toFl hA (.fin (y i) (hy i)))).val| ≤ k * (1 + ρ.u) ^ (k + 1) * B := by
  have u0 := ρ.u_nonneg
  have hpw : ∀ k, (1:ℝ) ≤ (1 + ρ.u) ^ k := fun k => one_le_pow₀ (by linarith)
  intro k
  induction k with
  | zero => intro _; exact ⟨trivial, by simp [dot]⟩
  | succ k ih =>
    intro hk
    obtain ⟨h1, h2⟩ := ih (by omega)
    have hs : Same (dot k (fun i => (FX.inp (.fin (x i) (hx i)) : FX G und)) (fun i => FX.inp (.fin (y i) (hy i))))
        (dot k (fun i => toFl hA (.fin (x i) (hx i))) (fun i => toFl hA (.fin (y i) (hy i)))) :=
      dot_same hA k (fun i => same_inp hA _) (fun i => same_inp hA _)
    obtain ⟨h3, e3⟩ := hs h1
    have eI : dot (k+1) (fun i => (FX.inp (.fin (x i) (hx i)) : FX G und)) (fun i => FX.inp (.fin (y i) (hy i))) =
        dot k (fun i => (FX.inp (.fin (x i) (hx i)) : FX G und)) (fun i => FX.inp (.fin (y i) (hy i)))
          + FX.inp (.fin (x k) (hx k)) * FX.inp (.fin (y k) (hy k)) := forN_succ _ _ _
    have eF : dot (k+1) (fun i => toFl hA (.fin (x i) (hx i))) (fun i => toFl hA (.fin (y i) (hy i))) =
        dot k (fun i => toFl hA (.fin (x i) (hx i))) (fun i => toFl hA (.fin (y i) (hy i)))
          + toFl hA (.fin (x k) (hx k)) * toFl hA (.fin (y k) (hy k)) := forN_succ _ _ _
    obtain ⟨g1, g2⟩ := hxy k (by omega)
    have hprod : |ρ.rnd (x k * y k)| ≤ (1 + ρ.u) * B :=
      le_trans (rnd_abs_le ρ _) (mul_le_mul_of_nonneg_left g1 (by linarith))
    have hsum : |(dot (k+1) (fun i => toFl hA (.fin (x i) (hx i))) (fun i => toFl hA (.fin (y i) (hy i)))).val| ≤
        ((k+1 : ℕ) : ℝ) * (1 + ρ.u) ^ (k + 1 + 1) * B := by
      rw [eF, Fl.val_add]
      refine le_trans (rnd_abs_le ρ _) ?_
      have e1 : (toFl hA (.fin (x k) (hx k)) * toFl hA (.fin (y k) (hy k))).val = ρ.rnd (x k * y k) := rfl
      rw [e1]
      have := abs_add_le (dot k (fun i => toFl hA (.fin (x i) (hx i))) (fun i => toFl hA (.fin (y i) (hy i)))).val (ρ.rnd (x k * y k))
      have h4 : (1 + ρ.u) * B ≤ (1 + ρ.u) ^ (k+1) * B := by
        refine mul_le_mul_of_nonneg_right ?_ hB
        have := hpw k
        rw [pow_succ]
        nlinarith
      calc (1 + ρ.u) * _ ≤ (1 + ρ.u) * (k * (1 + ρ.u) ^ (k + 1) * B + (1 + ρ.u) ^ (k+1) * B) :=
            mul_le_mul_of_nonneg_left (by linarith) (by linarith)
        _ = _ := by push_cast; ring
    have mono : ((k+1 : ℕ) : ℝ) * (1 + ρ.u) ^ (k + 1 + 1) * B ≤ G.big := by
      refine le_trans (mul_le_mul_of_nonneg_right ?_ hB) hbig
      refine mul_le_mul (by exact_mod_cast hk) (pow_le_pow_right₀ (by linarith) (by omega)) (by positivity) (by positivity)
    have hprod2 : (1 + ρ.u) * B ≤ G.big := by
      refine le_trans ?_ mono
      refine mul_le_mul_of_nonneg_right ?_ hB
      have h5 := hpw (k+1)
      have h6 : (1:ℝ) ≤ ((k+1 : ℕ) : ℝ) := by exact_mod_cast Nat.succ_pos k
      calc (1 + ρ.u) ≤ (1 + ρ.u) ^ (k+1) * (1 + ρ.u) := by nlinarith
        _ = 1 * (1 + ρ.u) ^ (k+1+1) := by ring
        _ ≤ _ := mul_le_mul_of_nonneg_right h6 (by positivity)
    have hG : G.rnd (x k * y k) = ρ.rnd (x k * y k) := hA.rnd g2
    have em : (XF.fin (x k) (hx k) : XF G) * .fin (y k) (hy k) = XF.ofReal G (x k * y k) := rfl
    have hm := ofReal_ok (G := G) (z := x k * y k) (by rw [hG]; linarith)
    have hmok : ((FX.inp (.fin (x k) (hx k)) : FX G und) * FX.inp (.fin (y k) (hy k))).ok := by
      refine ⟨not_nonFin_fin _ _, not_nonFin_fin _ _, ?_, g2⟩
      change ¬ NonFin (XF.ofReal G (x k * y k))
      rw [hm]
      exact not_nonFin_fin _ _
    refine ⟨?_, hsum⟩
    rw [eI]
    refine ⟨h1, hmok, ?_⟩
    have e5 : (dot k (fun i => (FX.inp (.fin (x i) (hx i)) : FX G und)) (fun i => FX.inp (.fin (y i) (hy i)))).val
        + ((FX.inp (.fin (x k) (hx k)) : FX G und) * FX.inp (.fin (y k) (hy k))).val =
        XF.ofReal G ((dot k (fun i => toFl hA (.fin (x i) (hx i))) (fun i => toFl hA (.fin (y i) (hy i)))).val + G.rnd (x k * y k)) := by
      rw [e3]
      change _ + XF.ofReal G (x k * y k) = _
      rw [hm]
      rfl
    rw [e5]
    have h7 := hA.add h3.1 (G.idem (x k * y k))
    rw [ofReal_ok]
    · exact not_nonFin_fin _ _
    · rw [h7, hG]
      exact le_trans hsum mono

/-- **C77** (dot product, range) If the products `xᵢyᵢ` do not underflow and are at most `B` in size, and `n(1+u)^(n+1)B` is not larger
than the largest finite number, then the dot product computed in the format is finite, and as accurate as C61 says. -/
theorem c77_dot_range (hA : Agree G und ρ) (n : ℕ) (hn : n * ρ.u < 1) (B : ℝ) (hB : 0 ≤ B)
    (hbig : n * (1 + ρ.u) ^ (n + 1) * B ≤ G.big)
    (x y : Vec ℝ) (hx : ∀ i, G.rnd (x i) = x i ∧ |x i| ≤ G.big) (hy : ∀ i, G.rnd (y i) = y i ∧ |y i| ≤ G.big)
    (hxy : ∀ i, i < n → |x i * y i| ≤ B ∧ ¬ und (x i * y i)) :
    ∃ v h, dot n (fun i => XF.fin (x i) (hx i)) (fun i => XF.fin (y i) (hy i)) = (.fin v h : XF G) ∧
      |v - ∑ i ∈ Finset.range n, x i * y i| ≤ gam ρ.u n * ∑ i ∈ Finset.range n, |x i * y i| := by
  obtain ⟨h1, -⟩ := dot_in_range hA n B hB hbig x y hx hy hxy n (le_refl _)
  obtain ⟨h, e⟩ := dot_same hA n (fun i => same_inp hA (.fin (x i) (hx i))) (fun i => same_inp hA (.fin (y i) (hy i))) h1
  rw [dot_val] at e
  exact ⟨_, h, e, c61_dot n hn _ _⟩

section norm
variable {p : ℕ} {emin emax : ℤ} {hp : 2 ≤ p} {h1 : emin ≤ -2} {h2 : emin + p - 1 ≤ emax} {h3 : 1 ≤ emax}

/-- **C77** (norm, range) If the elements of `v` are zero or at least `2^((emin+p-1)/2)` and at most `B` in size, and
`n(1+u)^(n+1)B²` is not larger than the largest finite number, then `norm(v)` computed in the format is finite, and as accurate as C61 says. -/
theorem c77_norm_range (n : ℕ) (hn : (n + 1) * (Rounding.nearest p (by omega)).u < 1) (h4 : emin + p ≤ 1) (B : ℝ)
    (hbig : n * (1 + (Rounding.nearest p (by omega)).u) ^ (n + 1) * B ^ 2 ≤ (Grid.ieee p emin emax hp h1 h2 h3).big)
    (x : Vec ℝ) (hx : ∀ i, (Grid.ieee p emin emax hp h1 h2 h3).rnd (x i) = x i ∧ |x i| ≤ (Grid.ieee p emin emax hp h1 h2 h3).big)
    (hr : ∀ i, i < n → |x i| ≤ B ∧ (x i = 0 ∨ (2:ℝ) ^ (emin + p - 1) ≤ x i ^ 2)) :
    ∃ v h, norm XF.sqrt n (fun i => XF.fin (x i) (hx i)) = (.fin v h : XF (Grid.ieee p emin emax hp h1 h2 h3)) ∧
      |v - Real.sqrt (∑ i ∈ Finset.range n, x i ^ 2)| ≤
        gam (Rounding.nearest p (by omega)).u (n + 1) * Real.sqrt (∑ i ∈ Finset.range n, x i ^ 2) := by
  set G := Grid.ieee p emin emax hp h1 h2 h3 with hG
  have hA : Agree G (Underflows p emin) (Rounding.nearest p (by omega)) := agree_ieee p emin emax hp h1 h2 h3
  set ρ := Rounding.nearest p (by omega) with hρ
  set m : ℝ := (2:ℝ) ^ (emin + p - 1) with hm
  have hm0 : 0 < m := by positivity
  have hm1 : m ≤ 1 := zpow_le_one_of_nonpos₀ (by norm_num) (by omega)
  have hund : ∀ z, z = 0 ∨ m ≤ |z| → ¬ Underflows p emin z := by
    rintro z (hz | hz) ⟨g1, g2⟩
    · subst hz
      have : (0:ℝ) = ((0:ℤ):ℝ) * (2:ℝ) ^ emin := by simp
      refine g2 ?_
      rw [this, rndIEEE_small_fix (by omega) 0 (by simp; positivity)]
    · exact absurd g1 (not_lt.2 hz)
  have hsq : ∀ i, i < n → |x i * x i| ≤ B ^ 2 ∧ ¬ Underflows p emin (x i * x i) := by
    intro i hi
    obtain ⟨g1, g2⟩ := hr i hi
    refine ⟨?_, hund _ ?_⟩
    · rw [abs_mul, sq]
      exact mul_le_mul g1 g1 (abs_nonneg _) (le_trans (abs_nonneg _) g1)
    · rcases g2 with h | h
      · exact Or.inl (by rw [h, mul_zero])
      · exact Or.inr (by rw [abs_of_nonneg (mul_self_nonneg _), ← sq]; exact h)
  have hok := dot_in_range hA n (B ^ 2) (sq_nonneg _) hbig x x hx hx hsq
  set D : ℕ → FX G (Underflows p emin) := fun k => dot k (fun i => FX.inp (.fin (x i) (hx i))) (fun i => FX.inp (.fin (x i) (hx i))) with hD
  set F : ℕ → Fl ρ := fun k => dot k (fun i => toFl hA (.fin (x i) (hx i))) (fun i => toFl hA (.fin (x i) (hx i))) with hF
  have hrep : ρ.rnd m = m := by
    have := agree_normal (p := p) (emin := emin) (z := m) (by rw [abs_of_pos hm0])
    exact rndNearest_pow p (by omega) _
  -- a sum of squares is 0 or at least as large as the smallest normal number
  have key : ∀ k, k ≤ n → 0 ≤ (F k).val ∧ ((F k).val = 0 ∨ m ≤ (F k).val) := by
    intro k
    induction k with
    | zero => intro _; exact ⟨le_refl _, Or.inl rfl⟩
    | succ k ih =>
      intro hk
      obtain ⟨g1, g2⟩ := ih (by omega)
      have e : (F (k+1)).val = ρ.rnd ((F k).val + ρ.rnd (x k * x k)) := by
        have : F (k+1) = F k + toFl hA (.fin (x k) (hx k)) * toFl hA (.fin (x k) (hx k)) := forN_succ _ _ _
        rw [this]
        rfl
      have hz : ρ.rnd 0 = 0 := Fl.rnd_zero ρ
      rcases (hr k (by omega)).2 with h | h
      · rw [e, h, mul_zero, hz, add_zero, (F k).repr]
        exact ⟨g1, g2⟩
      · have h5 : m ≤ ρ.rnd (x k * x k) := by
          rw [← hrep]
          exact ρ.mono _ _ (by rw [← sq]; exact h)
        have h6 : m ≤ (F (k+1)).val := by
          rw [e, ← hrep]
          exact ρ.mono _ _ (by linarith)
        exact ⟨by linarith, Or.inr h6⟩
  obtain ⟨k1, k2⟩ := key n (le_refl _)
  have hsame : Same (D n) (F n) := dot_same hA n (fun i => same_inp hA _) (fun i => same_inp hA _)
  obtain ⟨g, eg⟩ := hsame (hok n (le_refl _)).1
  have hsqrt : (FX.sqrt (D n)).ok := by
    refine ⟨(hok n (le_refl _)).1, ?_, ?_⟩
    · rw [eg]
      have e : XF.sqrt (.fin (F n).val g : XF G) = XF.ofReal G (Real.sqrt (F n).val) := if_neg (not_lt.2 k1)
      rw [e, ofReal_ok]
      · exact not_nonFin_fin _ _
      · have h7 : Real.sqrt (F n).val ≤ G.big := by
          rw [Real.sqrt_le_left (by linarith [G.two_le])]
          have := (abs_le.1 g.2).2
          have := G.two_le
          nlinarith
        have h8 := G.mono _ _ h7
        rw [G.big_fix] at h8
        have h9 := G.mono _ _ (Real.sqrt_nonneg (F n).val)
        have hz : G.rnd 0 = 0 := by
          have := G.neg 0
          rw [neg_zero] at this
          linarith
        rw [hz] at h9
        rw [abs_of_nonneg h9]
        exact h8
    · rw [eg]
      refine hund _ ?_
      rcases k2 with h | h
      · exact Or.inl (by rw [h]; exact Real.sqrt_zero)
      · right
        rw [abs_of_nonneg (Real.sqrt_nonneg _)]
        refine Real.le_sqrt_of_sq_le ?_
        nlinarith
  obtain ⟨g2, e2⟩ := (same_sqrt hA hsame).1 hsqrt
  refine ⟨_, g2, ?_, (c61_norm n hn _).2⟩
  rw [← e2]
  change XF.sqrt _ = XF.sqrt _
  rw [hD, dot_val]
  rfl

end norm

/-! ### Examples -/

/-- `double`: the rounding of the format and that of the standard model -/
theorem c77_double : Agree Grid.double (Underflows 53 (-1074)) Rounding.double :=
  agree_ieee 53 (-1074) 1023 (by norm_num) (by norm_num) (by norm_num) (by norm_num)

/-- `float` -/
theorem c77_float : Agree Grid.float (Underflows 24 (-149)) Rounding.float :=
  agree_ieee 24 (-149) 127 (by norm_num) (by norm_num) (by norm_num) (by norm_num)

theorem fin_int (k : ℤ) (hk : |k| ≤ 2 ^ 53) : Grid.double.rnd k = k ∧ |(k:ℝ)| ≤ Grid.double.big := by
  have e : rndIEEE 53 (-1074) (k:ℝ) = k := by
    rcases eq_or_ne k 0 with h | h
    · subst h
      have : (((0:ℤ)):ℝ) = ((0:ℤ):ℝ) * (2:ℝ) ^ (-1074:ℤ) := by simp
      rw [this, rndIEEE_small_fix (by norm_num) 0 (by simp)]
    · rw [agree_normal, rndNearest_int 53 (by norm_num) k hk]
      have : (1:ℝ) ≤ |(k:ℝ)| := by exact_mod_cast Int.one_le_abs h
      refine le_trans (zpow_le_one_of_nonpos₀ (by norm_num) (by norm_num)) this
  refine ⟨e, ?_⟩
  have h1 : |(k:ℝ)| ≤ 2 ^ 53 := by exact_mod_cast hk
  have h2 := (big_bounds (p := 53) (emin := -1074) (emax := 1023) (hp := by norm_num) (h1 := by norm_num) (h2 := by norm_num)
    (h3 := by norm_num)).1
  have h3 : ((2:ℝ) ^ 53) ≤ (2:ℝ) ^ (1023:ℤ) := by
    rw [← zpow_natCast]
    exact zpow_le_zpow_right₀ (by norm_num) (by norm_num)
  exact le_trans h1 (le_trans h3 h2)

theorem not_und {z : ℝ} (h : z = 0 ∨ 1 / 4 ≤ |z|) : ¬ Underflows 53 (-1074) z := by
  rintro ⟨g1, g2⟩
  rcases h with h | h
  · refine g2 ?_
    have : (0:ℝ) = ((0:ℤ):ℝ) * (2:ℝ) ^ (-1074:ℤ) := by simp
    rw [h, this, rndIEEE_small_fix (by norm_num) 0 (by simp)]
  · have h2 : ((2:ℝ) ^ ((-1074:ℤ) + (53:ℕ) - 1)) ≤ (2:ℝ) ^ (-2:ℤ) := zpow_le_zpow_right₀ (by norm_num) (by norm_num)
    have h3 : (2:ℝ) ^ (-2:ℤ) = 1 / 4 := by norm_num
    have h4 := lt_of_lt_of_le g1 h2
    rw [h3] at h4
    linarith

/-- the dot product of three `double`s, (1, 3, 5)·(2, 0, -7): no overflow, no underflow -/
example : ∃ v h, dot 3 (fun i => XF.fin (((![1, 3, 5] : Fin 3 → ℤ) (Fin.ofNat 3 i) : ℤ) : ℝ) (fin_int _ (by
      generalize Fin.ofNat 3 i = j; fin_cases j <;> simp)))
    (fun i => XF.fin (((![2, 0, -7] : Fin 3 → ℤ) (Fin.ofNat 3 i) : ℤ) : ℝ) (fin_int _ (by
      generalize Fin.ofNat 3 i = j; fin_cases j <;> simp))) = (.fin v h : XF Grid.double) ∧
    |v - (-33)| ≤ gam Rounding.double.u 3 * 37 := by
  have hu := Rounding.double_u
  obtain ⟨v, h, e, hv⟩ := c77_dot_range c77_double 3 (by rw [hu]; norm_num) 35 (by norm_num) (by
      have h2 := (fin_int (2 ^ 53) (by norm_num)).2
      refine le_trans ?_ h2
      rw [hu]; norm_num)
    (fun i => (((![1, 3, 5] : Fin 3 → ℤ) (Fin.ofNat 3 i) : ℤ) : ℝ)) (fun i => (((![2, 0, -7] : Fin 3 → ℤ) (Fin.ofNat 3 i) : ℤ) : ℝ))
    (fun i => fin_int _ (by generalize Fin.ofNat 3 i = j; fin_cases j <;> simp))
    (fun i => fin_int _ (by generalize Fin.ofNat 3 i = j; fin_cases j <;> simp))
    (fun i hi => by
      refine ⟨?_, not_und ?_⟩
      · generalize Fin.ofNat 3 i = j
        fin_cases j <;> norm_num
      · generalize Fin.ofNat 3 i = j
        fin_cases j <;> norm_num)
  refine ⟨v, h, e, ?_⟩
  have h1 : (∑ i ∈ Finset.range 3, (((![1, 3, 5] : Fin 3 → ℤ) (Fin.ofNat 3 i) : ℤ) : ℝ) * (((![2, 0, -7] : Fin 3 → ℤ) (Fin.ofNat 3 i) : ℤ) : ℝ)) = -33 := by
    simp [Finset.sum_range_succ, Fin.ofNat]; norm_num
  have h2 : (∑ i ∈ Finset.range 3, |(((![1, 3, 5] : Fin 3 → ℤ) (Fin.ofNat 3 i) : ℤ) : ℝ) * (((![2, 0, -7] : Fin 3 → ℤ) (Fin.ofNat 3 i) : ℤ) : ℝ)|) = 37 := by
    simp [Finset.sum_range_succ, Fin.ofNat]; norm_num
  rw [h1, h2] at hv
  exact hv

/-- the system 3·x = 1 in `double`: no flags, so it is solved with a small backward error -/
example : ∃ (y : ℝ) (E : ℝ), |E| ≤ gam Rounding.double.u 4 * (2 * (1 + Rounding.double.u) ^ 6 * 3) ∧ (3 + E) * y = 1 ∧
    ∃ h, gaussElimT (fun a f x => a - f * x) 1 1 (fun _ _ => XF.fin ((3:ℤ):ℝ) (fin_int 3 (by norm_num)))
      (fun _ _ => XF.fin ((1:ℤ):ℝ) (fin_int 1 (by norm_num))) (fun _ _ => 0) 0 0 = (.fin y h : XF Grid.double) := by
  have hu := Rounding.double_u
  have r3 : (1:ℝ) / 4 ≤ Grid.double.rnd (1 / ((3:ℤ):ℝ)) ∧ Grid.double.rnd (1 / ((3:ℤ):ℝ)) ≤ 1 := by
    have a1 := Grid.double.mono (1 / 4) (1 / ((3:ℤ):ℝ)) (by norm_num)
    have a2 := Grid.double.mono (1 / ((3:ℤ):ℝ)) 1 (by norm_num)
    rw [Grid.double.quarter] at a1
    rw [Grid.double.one] at a2
    exact ⟨a1, a2⟩
  have hb := Grid.double.two_le
  have ediv : (1 : XF Grid.double) / .fin ((3:ℤ):ℝ) (fin_int 3 (by norm_num)) =
      .fin (Grid.double.rnd (1 / ((3:ℤ):ℝ))) ⟨Grid.double.idem _, abs_le.2 ⟨by linarith [r3.1], by linarith [r3.2]⟩⟩ := by
    change (if ((3:ℤ):ℝ) = 0 then _ else XF.ofReal _ (1 / ((3:ℤ):ℝ))) = _
    rw [if_neg (by norm_num), ofReal_ok (abs_le.2 ⟨by linarith [r3.1], by linarith [r3.2]⟩)]
  have hdiv : ((1 : FX Grid.double (Underflows 53 (-1074))) / FX.inp (.fin ((3:ℤ):ℝ) (fin_int 3 (by norm_num)))).ok := by
    refine ⟨trivial, not_nonFin_fin _ _, ?_, ?_⟩
    · change ¬ NonFin ((1 : XF Grid.double) / .fin ((3:ℤ):ℝ) (fin_int 3 (by norm_num)))
      rw [ediv]
      exact not_nonFin_fin _ _
    · change ¬ Underflows 53 (-1074) (1 / ((3:ℤ):ℝ))
      exact not_und (by right; norm_num)
  have hmul : ((FX.inp (.fin ((1:ℤ):ℝ) (fin_int 1 (by norm_num))) : FX Grid.double (Underflows 53 (-1074))) *
      ((1 : FX Grid.double (Underflows 53 (-1074))) / FX.inp (.fin ((3:ℤ):ℝ) (fin_int 3 (by norm_num))))).ok := by
    refine ⟨not_nonFin_fin _ _, hdiv, ?_, ?_⟩
    · change ¬ NonFin ((.fin ((1:ℤ):ℝ) (fin_int 1 (by norm_num)) : XF Grid.double) * ((1 : XF Grid.double) / .fin ((3:ℤ):ℝ) (fin_int 3 (by norm_num))))
      rw [ediv]
      change ¬ NonFin (XF.ofReal Grid.double (((1:ℤ):ℝ) * _))
      rw [Int.cast_one, one_mul, ofReal_ok (by rw [Grid.double.idem]; exact abs_le.2 ⟨by linarith [r3.1], by linarith [r3.2]⟩)]
      exact not_nonFin_fin _ _
    · change FX.exactly _ _ _ ((1 : XF Grid.double) / .fin ((3:ℤ):ℝ) (fin_int 3 (by norm_num)))
      rw [ediv]
      refine not_und (Or.inr ?_)
      dsimp only
      rw [Int.cast_one, one_mul, abs_of_nonneg (by linarith [r3.1])]
      exact r3.1
  obtain ⟨y, E, h1, h2, h3⟩ := c77_solve_accurate c77_double 1 1 (by rw [hu]; norm_num) (fun _ _ => ((3:ℤ):ℝ)) (fun _ _ => ((1:ℤ):ℝ))
    (fun _ _ => fin_int 3 (by norm_num)) (fun _ _ => fin_int 1 (by norm_num)) (fun _ _ => 0) (by
      intro r q hr hq
      obtain rfl : r = 0 := by omega
      obtain rfl : q = 0 := by omega
      exact hmul) 3 (by intro r c _ _; norm_num) 0 (by omega)
  refine ⟨y 0, E 0 0, ?_, ?_, h1 0 (by omega)⟩
  · simpa using h2 0 0 (by omega) (by omega)
  · simpa using h3 0 (by omega)

/-- the norm of (3, 0, 4) in `double` -/
example : ∃ v h, norm XF.sqrt 3 (fun i => XF.fin (((![3, 0, 4] : Fin 3 → ℤ) (Fin.ofNat 3 i) : ℤ) : ℝ) (fin_int _ (by
      generalize Fin.ofNat 3 i = j; fin_cases j <;> simp))) = (.fin v h : XF Grid.double) ∧
    |v - 5| ≤ gam Rounding.double.u 4 * 5 := by
  have hu := Rounding.double_u
  obtain ⟨v, h, e, hv⟩ := c77_norm_range (p := 53) (emin := -1074) (emax := 1023) (hp := by norm_num) (h1 := by norm_num)
    (h2 := by norm_num) (h3 := by norm_num) 3 (by change _ * Rounding.double.u < 1; rw [hu]; norm_num) (by norm_num) 4 (by
      change _ * (1 + Rounding.double.u) ^ _ * _ ≤ Grid.double.big
      refine le_trans ?_ (fin_int (2 ^ 53) (by norm_num)).2
      rw [hu]; norm_num)
    (fun i => (((![3, 0, 4] : Fin 3 → ℤ) (Fin.ofNat 3 i) : ℤ) : ℝ))
    (fun i => fin_int _ (by generalize Fin.ofNat 3 i = j; fin_cases j <;> simp))
    (fun i hi => by
      have h1 : ((2:ℝ) ^ ((-1074:ℤ) + (53:ℕ) - 1)) ≤ 1 := zpow_le_one_of_nonpos₀ (by norm_num) (by norm_num)
      generalize Fin.ofNat 3 i = j
      fin_cases j
      · exact ⟨by norm_num, Or.inr (le_trans h1 (by norm_num))⟩
      · exact ⟨by norm_num, Or.inl (by norm_num)⟩
      · exact ⟨by norm_num, Or.inr (le_trans h1 (by norm_num))⟩)
  refine ⟨v, h, e, ?_⟩
  have h1 : (∑ i ∈ Finset.range 3, (((![3, 0, 4] : Fin 3 → ℤ) (Fin.ofNat 3 i) : ℤ) : ℝ) ^ 2) = 5 ^ 2 := by
    simp [Finset.sum_range_succ, Fin.ofNat]; norm_num
  rw [h1, Real.sqrt_sq (by norm_num)] at hv
  exact hv

end TooN.Special
