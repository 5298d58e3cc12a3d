import Verif.Props.OptMach
/-!
# C74: the downhill simplex with arbitrary floating-point arithmetic
-/
set_option linter.unusedSectionVars false
namespace TooN.Mach
open scoped Classical

variable {M : Mach} {n : Nat}

/-- the stored values are the function's values at the vertices -/
def Consistent (f : Pt M n → M.F) (s : Sx M n) : Prop := ∀ i ≤ n, s.values i = f (s.simplex i)

/-- no stored value is NaN -/
def NoNaN (n : Nat) (v : Nat → M.F) : Prop := ∀ i ≤ n, ¬ NaN (v i)

theorem getBest_spec (v : Nat → M.F) (hv : NoNaN n v) : getBest n v ≤ n ∧ ∀ i ≤ n, v (getBest n v) ≤ v i := by
  have := forRange_inv (fun i (b : Nat) => b < i ∧ ∀ j < i, v b ≤ v j) 1 (n + 1) (by omega)
    (fun i best => if v i < v best then i else best) 0
    ⟨by omega, fun j hj => by obtain rfl : j = 0 := by omega
                              exact le_rf (hv 0 (by omega))⟩ ?_
  · obtain ⟨h1, h2⟩ := this
    exact ⟨by unfold getBest; omega, fun i hi => h2 i (by omega)⟩
  · rintro i b h1 h2 ⟨q1, q2⟩
    beta_reduce
    split
    · rename_i hlt
      refine ⟨by omega, fun j hj => ?_⟩
      rcases Nat.lt_succ_iff_lt_or_eq.1 hj with h | rfl
      · exact le_tr (lt_le hlt) (q2 j h)
      · exact le_rf (hv _ (by omega))
    · rename_i hlt
      refine ⟨by omega, fun j hj => ?_⟩
      rcases Nat.lt_succ_iff_lt_or_eq.1 hj with h | rfl
      · exact q2 j h
      · exact (not_lt' (hv _ (by omega)) (hv _ (by omega))).1 hlt

theorem getWorst_spec (v : Nat → M.F) (hv : NoNaN n v) : getWorst n v ≤ n ∧ ∀ i ≤ n, v i ≤ v (getWorst n v) := by
  have := forRange_inv (fun i (b : Nat) => b < i ∧ ∀ j < i, v j ≤ v b) 1 (n + 1) (by omega)
    (fun i worst => if v worst < v i then i else worst) 0
    ⟨by omega, fun j hj => by obtain rfl : j = 0 := by omega
                              exact le_rf (hv 0 (by omega))⟩ ?_
  · obtain ⟨h1, h2⟩ := this
    exact ⟨by unfold getWorst; omega, fun i hi => h2 i (by omega)⟩
  · rintro i b h1 h2 ⟨q1, q2⟩
    beta_reduce
    split
    · rename_i hlt
      refine ⟨by omega, fun j hj => ?_⟩
      rcases Nat.lt_succ_iff_lt_or_eq.1 hj with h | rfl
      · exact le_tr (q2 j h) (lt_le hlt)
      · exact le_rf (hv _ (by omega))
    · rename_i hlt
      refine ⟨by omega, fun j hj => ?_⟩
      rcases Nat.lt_succ_iff_lt_or_eq.1 hj with h | rfl
      · exact q2 j h
      · exact (not_lt' (hv _ (by omega)) (hv _ (by omega))).1 hlt

/-- the index returned by `get_worst` is in range even with NaN -/
theorem getWorst_le (v : Nat → M.F) : getWorst n v ≤ n := by
  have := forRange_inv (fun i (b : Nat) => b < i) 1 (n + 1) (by omega)
    (fun i worst => if v worst < v i then i else worst) 0 (by omega) (by
      rintro i b h1 h2 q; beta_reduce; split <;> omega)
  unfold getWorst; omega
theorem getBest_le (v : Nat → M.F) : getBest n v ≤ n := by
  have := forRange_inv (fun i (b : Nat) => b < i) 1 (n + 1) (by omega)
    (fun i best => if v i < v best then i else best) 0 (by omega) (by
      rintro i b h1 h2 q; beta_reduce; split <;> omega)
  unfold getBest; omega

theorem scan_best_le (s : Sx M n) (w : Nat) : (scan s w).best ≤ n := by
  have := forN_inv (fun i (sc : Scan M n) => sc.best < i ∨ sc.best = 0) (n + 1) (scanStep s w)
    { secondWorst := -M.huge, bestval := M.huge, best := 0, x0 := fun _ => M.lit 0 } (Or.inr rfl) (by
      intro i t hi h
      unfold scanStep
      simp only
      split_ifs <;> (try dsimp only) <;> omega)
  change (scan s w).best < n + 1 ∨ (scan s w).best = 0 at this
  omega

theorem scan_spec (hM : HugeOk M) (s : Sx M n) (hv : NoNaN n s.values) (w : Nat) (hw : ∀ i ≤ n, s.values i ≤ s.values w) :
    (∀ i ≤ n, s.values (scan s w).best ≤ s.values i) ∧ (∀ i ≤ n, (scan s w).bestval ≤ s.values i) ∧
      ∀ t : M.F, t < (scan s w).secondWorst → t < s.values w := by
  have nh : ¬ NaN (-M.huge) := (le_not_nan (hM.2 _ (hv 0 (by omega)))).1
  have := forN_inv (fun i (sc : Scan M n) =>
      sc.best ≤ n ∧ s.values sc.best ≤ sc.bestval ∧ (∀ j < i, sc.bestval ≤ s.values j) ∧
      (sc.secondWorst = -M.huge ∨ sc.secondWorst ≤ s.values w)) (n + 1) (scanStep s w)
    { secondWorst := -M.huge, bestval := M.huge, best := 0, x0 := fun _ => M.lit 0 }
    ⟨by simp, hM.1 _ (hv 0 (by omega)), by omega, Or.inl rfl⟩ ?_
  · obtain ⟨-, h1, h2, h3⟩ := this
    refine ⟨fun i hi => le_tr h1 (h2 i (by omega)), fun i hi => h2 i (by omega), fun t ht => ?_⟩
    rcases h3 with e | e
    · change (scan s w).secondWorst = _ at e
      rw [e] at ht
      exact absurd ht ((not_lt' (lt_not_nan ht).1 nh).2 (hM.2 _ (lt_not_nan ht).1))
    · exact lt_le_tr ht e
  · rintro i sc hi ⟨h0, h1, h2, h3⟩
    have hb : ∀ sc' : Scan M n, sc'.best = (if s.values i < sc.bestval then i else sc.best) →
        sc'.bestval = (if s.values i < sc.bestval then s.values i else sc.bestval) →
        sc'.best ≤ n ∧ s.values sc'.best ≤ sc'.bestval ∧ (∀ j < i + 1, sc'.bestval ≤ s.values j) := by
      intro sc' e1 e2
      rw [e1, e2]
      split
      · rename_i hlt
        refine ⟨by omega, le_rf (hv i (by omega)), fun j hj => ?_⟩
        rcases Nat.lt_succ_iff_lt_or_eq.1 hj with h | rfl
        · exact le_tr (lt_le hlt) (h2 j h)
        · exact le_rf (hv _ (by omega))
      · rename_i hlt
        refine ⟨h0, h1, fun j hj => ?_⟩
        rcases Nat.lt_succ_iff_lt_or_eq.1 hj with h | rfl
        · exact h2 j h
        · exact (not_lt' (hv _ (by omega)) (le_not_nan h1).2).1 hlt
    have hs : (scanStep s w i sc).secondWorst = sc.secondWorst ∨ (scanStep s w i sc).secondWorst = s.values i := by
      unfold scanStep; simp only; split_ifs <;> simp
    have e1 : (scanStep s w i sc).best = (if s.values i < sc.bestval then i else sc.best) := by
      unfold scanStep; simp only; split_ifs <;> rfl
    have e2 : (scanStep s w i sc).bestval = (if s.values i < sc.bestval then s.values i else sc.bestval) := by
      unfold scanStep; simp only; split_ifs <;> rfl
    obtain ⟨a, b, c⟩ := hb _ e1 e2
    refine ⟨a, b, c, ?_⟩
    rcases hs with e | e <;> rw [e]
    · exact h3
    · exact Or.inr (hw i (by omega))

theorem put_consistent {f : Pt M n → M.F} {s : Sx M n} (h : Consistent f s) (i : Nat) (x : Pt M n) :
    Consistent f (s.put i x (f x)) := by
  intro j hj
  unfold Sx.put
  by_cases e : j = i
  · subst e; simp
  · simp [e, h j hj]

theorem shrink_spec {f : Pt M n → M.F} (sigma : M.F) {best : Nat} (hb : best ≤ n) {s : Sx M n} (h : Consistent f s) :
    Consistent f (shrink f sigma best s) ∧ (shrink f sigma best s).values best = s.values best ∧
      (shrink f sigma best s).simplex best = s.simplex best ∧ (shrink f sigma best s).evals = s.evals + n := by
  have := forN_inv (fun i (t : Sx M n) => Consistent f t ∧ t.values best = s.values best ∧
      t.simplex best = s.simplex best ∧ t.evals + (if best < i then 1 else 0) = s.evals + i) (n + 1)
    (fun i s =>
      if i ≠ best then
        let x := vadd (s.simplex best) (smulL sigma (vsub (s.simplex i) (s.simplex best)))
        { s.put i x (f x) with evals := s.evals + 1 }
      else s) s ⟨h, rfl, rfl, by simp⟩ ?_
  · obtain ⟨a, b, c, d⟩ := this
    refine ⟨a, b, c, ?_⟩
    rw [if_pos (by omega)] at d
    unfold shrink
    omega
  · rintro i t hi ⟨a, b, c, d⟩
    beta_reduce
    split
    · rename_i hne
      refine ⟨put_consistent a i _, ?_, ?_, ?_⟩
      · simp only [Sx.put]
        rw [Function.update_of_ne (Ne.symm hne)]; exact b
      · simp only [Sx.put]
        rw [Function.update_of_ne (Ne.symm hne)]; exact c
      · simp only
        by_cases hbi : best < i
        · rw [if_pos hbi] at d; rw [if_pos (by omega)]; omega
        · rw [if_neg hbi] at d; rw [if_neg (by omega)]; omega
    · rename_i hne
      push Not at hne
      refine ⟨a, b, c, ?_⟩
      subst hne
      rw [if_neg (lt_irrefl _)] at d
      rw [if_pos (by omega)]
      omega

/-- `find_next_point` replaces the worst vertex, or all but one, and evaluates at most `n + 2` points -/
theorem findNext_cases (f : Pt M n → M.F) (p : Params M) (s : Sx M n) (h : Consistent f s) :
    Consistent f (findNext f p s) ∧ s.evals < (findNext f p s).evals ∧ (findNext f p s).evals ≤ s.evals + (n + 2) ∧
    ((∃ x, (f x < (scan s (getWorst n s.values)).bestval ∨ f x < (scan s (getWorst n s.values)).secondWorst ∨
          f x < s.values (getWorst n s.values)) ∧
        (findNext f p s).simplex = Function.update s.simplex (getWorst n s.values) x ∧
        (findNext f p s).values = Function.update s.values (getWorst n s.values) (f x)) ∨
      ((findNext f p s).values (scan s (getWorst n s.values)).best = s.values (scan s (getWorst n s.values)).best ∧
        (findNext f p s).simplex (scan s (getWorst n s.values)).best = s.simplex (scan s (getWorst n s.values)).best)) := by
  have hb := scan_best_le s (getWorst n s.values)
  unfold findNext
  simp only
  generalize getWorst n s.values = w at *
  generalize smulR (scan s w).x0 (M.lit 1 / M.lit n) = x0
  generalize vsub (smulL (M.lit 1 + p.alpha) x0) (smulL p.alpha (s.simplex w)) = xr
  have hsh : ∀ k, Consistent f { s with evals := s.evals + k } := fun k => h
  split_ifs with h1 h2 h3 h4 h5
  · refine ⟨put_consistent (hsh 2) w _, by simp [Sx.put], by simp only [Sx.put]; omega, Or.inl ⟨_, Or.inl (lt_tr h2 h1), rfl, rfl⟩⟩
  · refine ⟨put_consistent (hsh 2) w _, by simp [Sx.put], by simp only [Sx.put]; omega, Or.inl ⟨_, Or.inl h1, rfl, rfl⟩⟩
  · refine ⟨put_consistent (hsh 1) w _, by simp [Sx.put], by simp only [Sx.put]; omega, Or.inl ⟨_, Or.inr (Or.inl h3), rfl, rfl⟩⟩
  · refine ⟨put_consistent (hsh 2) w _, by simp [Sx.put], by simp only [Sx.put]; omega,
      Or.inl ⟨_, Or.inr (Or.inr (le_lt_tr h5 h4)), rfl, rfl⟩⟩
  · obtain ⟨a, b, c, d⟩ := shrink_spec p.sigma hb (hsh 2)
    refine ⟨a, ?_, ?_, Or.inr ⟨b, c⟩⟩
    · rw [show s.evals + 1 + 1 = s.evals + 2 from rfl, d]; simp only; omega
    · rw [show s.evals + 1 + 1 = s.evals + 2 from rfl, d]; simp only; omega
  · obtain ⟨a, b, c, d⟩ := shrink_spec p.sigma hb (hsh 1)
    refine ⟨a, ?_, ?_, Or.inr ⟨b, c⟩⟩
    · rw [d]; simp only; omega
    · rw [d]; simp only; omega

theorem consistent_noNaN {f : Pt M n → M.F} (hf : ∀ x, ¬ NaN (f x)) {s : Sx M n} (h : Consistent f s) : NoNaN n s.values :=
  fun i hi => by rw [h i hi]; exact hf _

theorem findNext_best (hM : HugeOk M) (f : Pt M n → M.F) (hf : ∀ x, ¬ NaN (f x)) (p : Params M) (s : Sx M n)
    (h : Consistent f s) :
    (findNext f p s).values (getBest n (findNext f p s).values) ≤ s.values (getBest n s.values) := by
  obtain ⟨hc, -, -, hcase⟩ := findNext_cases f p s h
  have hv := consistent_noNaN hf h
  have hv' := consistent_noNaN hf hc
  have hgb := getBest_spec _ hv
  have hgb' := getBest_spec _ hv'
  have hgw := getWorst_spec _ hv
  obtain ⟨q1, q2, q3⟩ := scan_spec hM s hv _ hgw.2
  rcases hcase with ⟨x, hx, -, ev⟩ | ⟨ev, -⟩
  · have hlt : f x < s.values (getWorst n s.values) := by
      rcases hx with hx | hx | hx
      · exact lt_le_tr hx (q2 _ hgw.1)
      · exact q3 _ hx
      · exact hx
    by_cases e : getBest n s.values = getWorst n s.values
    · refine le_tr (hgb'.2 (getWorst n s.values) hgw.1) ?_
      rw [e, ev, Function.update_self]
      exact lt_le hlt
    · refine le_tr (hgb'.2 (getBest n s.values) hgb.1) ?_
      rw [ev, Function.update_of_ne e]
      exact le_rf (hv _ hgb.1)
  · refine le_tr (hgb'.2 _ (scan_best_le s (getWorst n s.values))) ?_
    rw [ev]
    exact q1 _ hgb.1

theorem restart_spec (f : Pt M n → M.F) (c : Pt M n) (spread : M.F) (s : Sx M n) :
    Consistent f (restart f c spread s) ∧ (restart f c spread s).simplex n = c ∧
      (∀ i < n, ∀ j : Fin n, (restart f c spread s).simplex i j = if (j : Nat) = i then c j + spread else c j) ∧
      (restart f c spread s).evals = s.evals + (n + 1) := by
  have h1 := forN_inv (fun i (m : Nat → Pt M n) => ∀ j < i, m j = c) (n + 1) (fun i m => Function.update m i c) s.simplex
    (by omega) (by
      intro i t hi h j hj
      by_cases e : j = i
      · subst e; simp
      · simp only [Function.update_of_ne e]; exact h j (by omega))
  generalize hm : forN (n + 1) (fun i m => Function.update m i c) s.simplex = m0 at h1
  have h2 := forN_inv (fun i (m : Nat → Pt M n) => (∀ j, i ≤ j → j ≤ n → m j = c) ∧
      ∀ k < i, ∀ j : Fin n, m k j = if (j : Nat) = k then c j + spread else c j) n
    (fun i (m : Nat → Pt M n) => Function.update m i (fun j => if (j : Nat) = i then m i j + spread else m i j)) m0
    ⟨fun j _ hj => h1 j (by omega), by omega⟩ (by
      rintro i t hi ⟨a, b⟩
      refine ⟨fun j h1 h2 => ?_, fun k hk j => ?_⟩
      · simp only [Function.update_of_ne (show j ≠ i by omega)]; exact a j (by omega) h2
      · by_cases e : k = i
        · subst e
          simp only [Function.update_self]
          rw [a k le_rfl (by omega)]
        · simp only [Function.update_of_ne e]; exact b k (by omega) j)
  generalize hm1 : forN n (fun i (m : Nat → Pt M n) =>
    Function.update m i (fun j => if (j : Nat) = i then m i j + spread else m i j)) m0 = m1 at h2
  have h3 := forN_inv (fun i (v : Nat → M.F) => ∀ j < i, v j = f (m1 j)) (n + 1)
    (fun i v => Function.update v i (f (m1 i))) s.values (by omega) (by
      intro i t hi h j hj
      by_cases e : j = i
      · subst e; simp
      · simp only [Function.update_of_ne e]; exact h j (by omega))
  unfold restart
  simp only [hm, hm1]
  exact ⟨fun i hi => h3 i (by omega), h2.1 n le_rfl le_rfl, h2.2, trivial⟩

/-- **C74 (downhill simplex, values).** Whatever the arithmetic and the function do (rounding, overflow, NaN), after any
history of `restart`s and `iterate`s the value stored for a vertex is the function's value at that vertex, and one `iterate`
calls the function between once and `n + 2` times. -/
theorem c74_simplex_values (f : Pt M n → M.F) (c : Pt M n) (spread : M.F) (garbage : Sx M n) (os : List (Op M n)) :
    Consistent f (runOps f os (restart f c spread garbage)) ∧
      ∀ p, (runOps f os (restart f c spread garbage)).evals < (iterate f p (runOps f os (restart f c spread garbage))).1.evals ∧
        (iterate f p (runOps f os (restart f c spread garbage))).1.evals ≤
          (runOps f os (restart f c spread garbage)).evals + (n + 2) := by
  have key : ∀ (os : List (Op M n)) s, Consistent f s → Consistent f (runOps f os s) := by
    intro os
    induction os with
    | nil => intro s h; exact h
    | cons o os ih =>
      intro s h
      apply ih
      cases o with
      | restart c sp => exact (restart_spec f c sp s).1
      | restartBest sp => exact (restart_spec f _ sp s).1
      | iterate p => exact (findNext_cases f p s h).1
  have hc := key os _ (restart_spec f c spread garbage).1
  exact ⟨hc, fun p => ⟨(findNext_cases f p _ hc).2.1, (findNext_cases f p _ hc).2.2.1⟩⟩

/-- **C74 (downhill simplex, best value).** Whatever the arithmetic does, for a function without NaN values: `get_best` is a
vertex of smallest value, and neither `iterate` (with any parameters) nor `restart(func, spread)` ever increases the best
value. -/
theorem c74_simplex_best (hM : HugeOk M) (f : Pt M n → M.F) (hf : ∀ x, ¬ NaN (f x)) (os : List (Op M n)) (s : Sx M n)
    (hs : Consistent f s) (hos : ∀ o ∈ os, ∀ c sp, o ≠ .restart c sp) :
    (∀ i ≤ n, (runOps f os s).values (getBest n (runOps f os s).values) ≤ (runOps f os s).values i) ∧
      (runOps f os s).values (getBest n (runOps f os s).values) ≤ s.values (getBest n s.values) := by
  have step : ∀ o : Op M n, (∀ c sp, o ≠ .restart c sp) → ∀ s, Consistent f s → Consistent f (o.run f s) ∧
      (o.run f s).values (getBest n (o.run f s).values) ≤ s.values (getBest n s.values) := by
    intro o ho s hs
    cases o with
    | restart c sp => exact absurd rfl (ho c sp)
    | restartBest sp =>
      obtain ⟨h1, h2, -, -⟩ := restart_spec f (s.simplex (getBest n s.values)) sp s
      refine ⟨h1, ?_⟩
      have hgb := getBest_spec _ (consistent_noNaN hf h1)
      refine le_tr (hgb.2 n le_rfl) ?_
      rw [h1 n le_rfl, h2, ← hs _ (getBest_le _)]
      exact le_rf (by rw [hs _ (getBest_le _)]; exact hf _)
    | iterate p => exact ⟨(findNext_cases f p s hs).1, findNext_best hM f hf p s hs⟩
  induction os generalizing s with
  | nil =>
    have := getBest_spec _ (consistent_noNaN hf hs)
    exact ⟨this.2, this.2 _ this.1⟩
  | cons o os ih =>
    obtain ⟨h1, h2⟩ := step o (hos o (by simp)) s hs
    obtain ⟨h3, h4⟩ := ih (o.run f s) h1 (fun o' ho' => hos o' (by simp [ho']))
    exact ⟨h3, le_tr h4 h2⟩

end TooN.Mach
