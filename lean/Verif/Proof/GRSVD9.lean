import Verif.Proof.GRSVD8
import Mathlib.Data.List.Sort
import Mathlib.LinearAlgebra.Matrix.Trace
/-! # GR_SVD: the template flags, `reorder`, the size of `anorm` -/
set_option linter.unusedSectionVars false
set_option linter.unusedVariables false
namespace TooN.GRSVD
open Finset
open scoped Classical
noncomputable section

section flags
variable {M N : Nat} {wU wV wU' wV' : Bool}

/-- two runs with different flags -/
structure Sim (wU wV wU' wV' : Bool) (st st' : St) : Prop where
  d : st.d = st'.d
  e : st.e = st'.e
  nError : st.nError = st'.nError
  nIter : st.nIter = st'.nIter
  U : wU = wU' → st.U = st'.U
  V : wV = wV' → st.V = st'.V

def SimSw (wU wV wU' wV' : Bool) (w w' : Sw) : Prop :=
  Sim wU wV wU' wV' w.st w'.st ∧ w.f = w'.f ∧ w.x = w'.x ∧ w.c = w'.c ∧ w.s = w'.s

theorem orel_bind {α β γ δ : Type} {R : α → β → Prop} {S : γ → δ → Prop} {x : Option α} {y : Option β} {f : α → Option γ} {g : β → Option δ}
    (h : Option.Rel R x y) (hf : ∀ a b, R a b → Option.Rel S (f a) (g b)) : Option.Rel S (x.bind f) (y.bind g) := by
  cases h with
  | none => exact .none
  | some h => exact hf _ _ h

theorem forNM_rel {α β : Type} {R : α → β → Prop} (n : Nat) (f : Nat → α → Option α) (g : Nat → β → Option β) (a : α) (b : β) (h : R a b)
    (hf : ∀ i a b, R a b → Option.Rel R (f i a) (g i b)) : Option.Rel R (forNM n f a) (forNM n g b) := by
  induction n with
  | zero => exact .some h
  | succ n ih => exact orel_bind ih (hf n)

theorem sim_cancel (negl : ℝ → Prop) (l1 : Nat) : ∀ n i c s (st st' : St), Sim wU wV wU' wV' st st' →
    Option.Rel (Sim wU wV wU' wV') (cancelLoop M wU negl l1 n i c s st) (cancelLoop M wU' negl l1 n i c s st') := by
  intro n
  induction n with
  | zero => intro i c s st st' h; exact .some h
  | succ n ih =>
    intro i c s st st' h
    rw [cancelLoop, cancelLoop]
    simp only
    rw [← h.d, ← h.e]
    split
    · exact .some ⟨rfl, rfl, h.nError, h.nIter, h.U, h.V⟩
    · split
      · exact .none
      · refine ih _ _ _ _ _ ⟨rfl, rfl, h.nError, h.nIter, fun hw => ?_, h.V⟩
        rw [← hw, h.U hw]

theorem sim_sweep (i1 : Nat) (w w' : Sw) (h : SimSw wU wV wU' wV' w w') :
    Option.Rel (SimSw wU wV wU' wV') (sweepStep M N wU wV i1 w) (sweepStep M N wU' wV' i1 w') := by
  obtain ⟨h, h1, h2, h3, h4⟩ := h
  unfold sweepStep
  simp only
  rw [← h.d, ← h.e, ← h1, ← h2, ← h3, ← h4]
  split
  · exact .none
  · refine .some ⟨⟨rfl, rfl, h.nError, h.nIter, fun hw => ?_, fun hw => ?_⟩, rfl, rfl, rfl, rfl⟩
    · simp only; rw [← hw, h.U hw]
    · simp only; rw [← hw, h.V hw]

theorem sim_565 (l k : Nat) (st st' : St) (h : Sim wU wV wU' wV' st st') :
    Option.Rel (fun r r' => r.1 = r'.1 ∧ r.2.1 = r'.2.1 ∧ Sim wU wV wU' wV' r.2.2 r'.2.2) (line565 M N wU wV l k st) (line565 M N wU' wV' l k st') := by
  unfold line565
  simp only
  rw [← h.d, ← h.e, ← h.nIter]
  split
  · exact .some ⟨rfl, rfl, h⟩
  split
  · exact .some ⟨rfl, rfl, ⟨rfl, rfl, rfl, rfl, h.U, h.V⟩⟩
  split
  · exact .none
  generalize ((st.d (k - 1) - st.d k) * (st.d (k - 1) + st.d k) + (st.e (k - 1) - st.e k) * (st.e (k - 1) + st.e k)) / (2 * st.e k * st.d (k - 1)) = f0
  generalize f0 + (if f0 ≥ 0 then Real.sqrt (f0 * f0 + 1) else -Real.sqrt (f0 * f0 + 1)) = f1
  split
  · exact .none
  split
  · exact .none
  · refine orel_bind (R := SimSw wU wV wU' wV') ?_ ?_
    · exact forNM_rel (R := SimSw wU wV wU' wV') _ _ _ _ _
        (show SimSw wU wV wU' wV' { st := { st with nIter := st.nIter + 1 }, f := _, x := _, c := _, s := _ }
          { st := { st' with d := st.d, e := st.e, nIter := st.nIter + 1 }, f := _, x := _, c := _, s := _ } from
        ⟨⟨rfl, rfl, h.nError, rfl, h.U, h.V⟩, rfl, rfl, rfl, rfl⟩)
        (fun i a b hab => sim_sweep _ a b hab)
    rintro a b ⟨hab, e1, e2, e3, e4⟩
    refine .some ⟨rfl, rfl, ⟨?_, ?_, hab.nError, hab.nIter, hab.U, hab.V⟩⟩
    · simp only; rw [hab.d, e2]
    · simp only; rw [hab.e, e1]

theorem sim_search (negl : ℝ → Prop) (k : Nat) : ∀ n (st st' : St), Sim wU wV wU' wV' st st' →
    Option.Rel (fun r r' => r.1 = r'.1 ∧ r.2.1 = r'.2.1 ∧ Sim wU wV wU' wV' r.2.2 r'.2.2)
      (searchFrom M N wU wV negl k n st) (searchFrom M N wU' wV' negl k n st') := by
  intro n
  induction n with
  | zero => intro _ _ _; exact .none
  | succ l ih =>
    intro st st' h
    rw [searchFrom, searchFrom, ← h.d, ← h.e]
    split
    · exact sim_565 l k st st' h
    split
    · exact .none
    split
    · exact orel_bind (sim_cancel negl _ _ _ _ _ st st' h) (fun a b hab => sim_565 l k a b hab)
    · exact ih st st' h

theorem sim_iterate (negl : ℝ → Prop) (k : Nat) : ∀ n (st st' : St), Sim wU wV wU' wV' st st' →
    Option.Rel (fun r r' => r.1 = r'.1 ∧ Sim wU wV wU' wV' r.2 r'.2)
      (iterateK M N wU wV negl k n st) (iterateK M N wU' wV' negl k n st') := by
  intro n
  induction n with
  | zero => intro _ _ _; exact .none
  | succ n ih =>
    intro st st' h
    rw [iterateK, iterateK]
    have := sim_search (M := M) (N := N) negl k (k + 1) st st' h
    generalize searchFrom M N wU wV negl k (k + 1) st = x at *
    generalize searchFrom M N wU' wV' negl k (k + 1) st' = y at *
    cases this with
    | none => exact .none
    | some h =>
      rename_i r r'
      obtain ⟨b, z, s⟩ := r
      obtain ⟨b', z', s'⟩ := r'
      obtain ⟨h1, h2, h3⟩ := h
      simp only at h1 h2 h3
      subst h1 h2
      cases b
      · exact ih _ _ h3
      · exact .some ⟨rfl, h3⟩

theorem sim_diag (negl : ℝ → Prop) (fuel : Nat) : ∀ n (st st' : St), Sim wU wV wU' wV' st st' →
    Option.Rel (Sim wU wV wU' wV') (diagonalize M N wU wV negl fuel n st) (diagonalize M N wU' wV' negl fuel n st') := by
  intro n
  induction n with
  | zero => intro st st' h; exact .some h
  | succ k ih =>
    intro st st' h
    rw [diagonalize, diagonalize]
    refine orel_bind (sim_iterate negl k fuel _ _ ⟨h.d, h.e, h.nError, rfl, h.U, h.V⟩) ?_
    rintro ⟨z, s⟩ ⟨z', s'⟩ ⟨h1, h2⟩
    simp only at h1 h2
    subst h1
    simp only
    rw [← h2.nError]
    split
    · exact .some h2
    · apply ih
      split
      · refine ⟨?_, h2.e, rfl, h2.nIter, h2.U, fun hw => ?_⟩
        · simp only; rw [h2.d]
        · simp only; rw [← hw, h2.V hw]
      · exact h2

theorem sim_svd (negl : ℝ → ℝ → Prop) (fuel : Nat) (A : Mat ℝ) (d0 e0 : Vec ℝ) (V0 : Mat ℝ) :
    Option.Rel (Sim wU wV wU' wV') (svd M N wU wV negl fuel A d0 e0 V0) (svd M N wU' wV' negl fuel A d0 e0 V0) := by
  unfold svd
  refine orel_bind (R := Eq) (by cases bidiagonalize M N A d0 e0 <;> constructor; rfl) ?_
  rintro b _ rfl
  refine orel_bind (R := Eq) (by cases accumulateRHS N b.U b.e V0 <;> constructor; rfl) ?_
  rintro V _ rfl
  refine orel_bind (R := Eq) (by cases accumulateLHS M N b.d b.U <;> constructor; rfl) ?_
  rintro U _ rfl
  exact sim_diag _ _ _ _ _ ⟨rfl, rfl, rfl, rfl, fun _ => rfl, fun _ => rfl⟩
end flags

section reorder

theorem pairLe_trans (a b c : ℝ × Nat) (h1 : pairLe a b = true) (h2 : pairLe b c = true) : pairLe a c = true := by
  simp only [pairLe, decide_eq_true_eq] at *
  rcases h1 with h1 | ⟨h1, h1'⟩ <;> rcases h2 with h2 | ⟨h2, h2'⟩
  · exact Or.inl (h1.trans h2)
  · exact Or.inl (h2 ▸ h1)
  · exact Or.inl (h1 ▸ h2)
  · exact Or.inr ⟨h1.trans h2, h1'.trans h2'⟩

theorem pairLe_total (a b : ℝ × Nat) : (pairLe a b || pairLe b a) = true := by
  simp only [pairLe, Bool.or_eq_true, decide_eq_true_eq]
  rcases lt_trichotomy a.1 b.1 with h | h | h
  · exact Or.inl (Or.inl h)
  · rcases le_total a.2 b.2 with h' | h'
    · exact Or.inl (Or.inr ⟨h, h'⟩)
    · exact Or.inr (Or.inr ⟨h.symm, h'⟩)
  · exact Or.inr (Or.inl h)

/-- what sorting does: a permutation `σ` with descending values, equal values in their old order -/
theorem sorted_spec (N : Nat) (d : Vec ℝ) : ∃ σ : Equiv.Perm (Fin N),
    (∀ i : Fin N, (sorted N d).getD i (0, 0) = (-d (σ i), ((σ i : Fin N) : Nat))) ∧
    (∀ i j : Fin N, i ≤ j → d (σ j) ≤ d (σ i)) ∧ (∀ i j : Fin N, i < j → d (σ i) = d (σ j) → σ i < σ j) := by
  have hp : (sorted N d).Perm ((List.range N).map fun i => (-d i, i)) := List.mergeSort_perm _ _
  have hlen : (sorted N d).length = N := by rw [hp.length_eq]; simp
  have hpw : (sorted N d).Pairwise (fun a b => pairLe a b = true) :=
    List.pairwise_mergeSort (fun a b c => pairLe_trans a b c) (fun a b => pairLe_total a b) _
  have hnd : (sorted N d).Nodup := by
    rw [hp.nodup_iff]
    refine List.Nodup.map ?_ List.nodup_range
    intro a b h; exact (Prod.mk.inj h).2
  have hmem : ∀ x ∈ sorted N d, x.1 = -d x.2 ∧ x.2 < N := by
    intro x hx
    rw [hp.mem_iff, List.mem_map] at hx
    obtain ⟨i, hi, rfl⟩ := hx
    exact ⟨rfl, List.mem_range.mp hi⟩
  have hlt : ∀ i : Fin N, (i : Nat) < (sorted N d).length := fun i => by rw [hlen]; exact i.2
  have hget : ∀ i : Fin N, (sorted N d).getD i (0, 0) = (sorted N d)[(i : Nat)]'(hlt i) := fun i => by
    rw [List.getD_eq_getElem?_getD, List.getElem?_eq_getElem (hlt i), Option.getD_some]
  let f : Fin N → Fin N := fun i => ⟨((sorted N d)[(i : Nat)]'(hlt i)).2, (hmem _ (List.getElem_mem _)).2⟩
  have hval : ∀ i : Fin N, (sorted N d)[(i : Nat)]'(hlt i) = (-d (f i), (f i : Nat)) := by
    intro i
    have := (hmem _ (List.getElem_mem (hlt i))).1
    exact Prod.ext this rfl
  have hinj : Function.Injective f := by
    intro i j hij
    have : (sorted N d)[(i : Nat)]'(hlt i) = (sorted N d)[(j : Nat)]'(hlt j) := by rw [hval, hval, hij]
    exact Fin.ext ((hnd.getElem_inj_iff).mp this)
  refine ⟨Equiv.ofBijective f (Finite.injective_iff_bijective.mp hinj), ?_, ?_, ?_⟩
  · intro i; rw [hget, hval]; rfl
  · intro i j hij
    rcases eq_or_lt_of_le hij with h | h
    · rw [h]
    · have h1 := (List.pairwise_iff_getElem.mp hpw) i j (hlt i) (hlt j) h
      rw [hval, hval] at h1
      simp only [pairLe, decide_eq_true_eq] at h1
      show d (f j) ≤ d (f i)
      rcases h1 with h1 | ⟨h1, _⟩ <;> linarith
  · intro i j h he
    have h1 := (List.pairwise_iff_getElem.mp hpw) i j (hlt i) (hlt j) h
    rw [hval, hval] at h1
    simp only [pairLe, decide_eq_true_eq] at h1
    have he : d (f i) = d (f j) := he
    show f i < f j
    rcases h1 with h1 | ⟨_, h1⟩
    · exfalso; linarith
    · exact lt_of_le_of_ne h1 (fun h2 => absurd (hinj h2) h.ne)

theorem vecFill (N : Nat) (f : Nat → ℝ) (v : Vec ℝ) (i : Nat) :
    forN N (fun i d => Vec.set d i (f i)) v i = if i < N then f i else v i := by
  have := forN_inv (fun n (w : Vec ℝ) => ∀ i, w i = if i < n then f i else v i) N (fun i d => Vec.set d i (f i)) v (fun i => by simp) ?_
  · exact this i
  intro n w hn ih i
  by_cases h : i = n
  · rw [h, Vec.set_self, if_pos (by omega)]
  · rw [Vec.set_ne _ _ _ _ h, ih]
    by_cases h2 : i < n
    · rw [if_pos h2, if_pos (by omega)]
    · rw [if_neg h2, if_neg (by omega)]

theorem matFill (R N : Nat) (f : Nat → Nat → ℝ) (X : Mat ℝ) (a i : Nat) :
    forN N (fun i U => forN R (fun r U => Mat.set U r i (f r i)) U) X a i = if i < N ∧ a < R then f a i else X a i := by
  have := forN_inv (fun n (Y : Mat ℝ) => ∀ a i, Y a i = if i < n ∧ a < R then f a i else X a i) N
    (fun i U => forN R (fun r U => Mat.set U r i (f r i)) U) X (fun a i => by simp) ?_
  · exact this a i
  intro n Y hn ih a i
  rw [← forRange_zero, colWrite 0 R n (fun k _ => f k n) (fun k => f k n) Y (fun _ _ _ _ _ => rfl), ih]
  by_cases h : i = n
  · by_cases h2 : a < R
    · rw [if_pos ⟨h, by omega, h2⟩, if_pos (by omega), h]
    · rw [if_neg (by omega), if_neg (by omega), if_neg (by omega)]
  · rw [if_neg (by omega)]
    by_cases h2 : i < n ∧ a < R
    · rw [if_pos h2, if_pos (by omega)]
    · rw [if_neg h2, if_neg (by omega)]

end reorder

theorem frob_orth {M N : Nat} (P : Matrix (Fin M) (Fin M) ℝ) (Q : Matrix (Fin N) (Fin N) ℝ) (hP : P.transpose * P = 1) (hQ : Q.transpose * Q = 1)
    (B : Matrix (Fin M) (Fin N) ℝ) : ∑ a, ∑ c, (P * B * Q.transpose) a c * (P * B * Q.transpose) a c = ∑ a, ∑ c, B a c * B a c := by
  have key : ∀ X : Matrix (Fin M) (Fin N) ℝ, ∑ a, ∑ c, X a c * X a c = (X * X.transpose).trace := by
    intro X
    simp only [Matrix.trace, Matrix.diag_apply, Matrix.mul_apply, Matrix.transpose_apply]
  rw [key, key]
  have : P * B * Q.transpose * (P * B * Q.transpose).transpose = P * (B * B.transpose * P.transpose) := by
    rw [Matrix.transpose_mul, Matrix.transpose_transpose, Matrix.mul_assoc, ← Matrix.mul_assoc Q.transpose, hQ, Matrix.one_mul, Matrix.transpose_mul]
    simp only [Matrix.mul_assoc]
  rw [this, Matrix.trace_mul_comm, Matrix.mul_assoc, hP, Matrix.mul_one]

theorem anorm_le (M N : Nat) (hN : 1 ≤ N) (A : Mat ℝ) (d0 e0 : Vec ℝ) (b : BSt) (h : bidiagonalize M N A d0 e0 = some b) :
    b.anorm ≤ 2 * Real.sqrt (∑ a ∈ range M, ∑ c ∈ range N, A a c ^ 2) := by
  obtain ⟨b', hb, hp, hgH, hgK, he0, hdz, hez⟩ := bidiagonalize_spec M N hN A d0 e0
  rw [h] at hb
  have hb := Option.some.inj hb
  subst hb
  have hF := frob_orth (prodH M b.U b.d N) (prodK N b.U b.e (N - 1)) (prodH_orth M b.U b.d N hgH)
    (prodK_orth N b.U b.e (N - 1) (fun j hj => hgK j (by omega))) (asM M N (bidiag b.d b.e))
  rw [← hp] at hF
  have hA : ∑ a ∈ range M, ∑ c ∈ range N, A a c ^ 2 = ∑ a : Fin M, ∑ c : Fin N, asM M N A a c * asM M N A a c := by
    rw [← Fin.sum_univ_eq_sum_range (fun a => ∑ c ∈ range N, A a c ^ 2)]
    refine Finset.sum_congr rfl (fun a _ => ?_)
    rw [← Fin.sum_univ_eq_sum_range (fun c => A a c ^ 2)]
    exact Finset.sum_congr rfl (fun c _ => by rw [asM_apply, pow_two])
  rw [hA, hF]
  have hent : ∀ (p : Fin M) (q : Fin N), |bidiag b.d b.e p q| ≤ Real.sqrt (∑ a : Fin M, ∑ c : Fin N, asM M N (bidiag b.d b.e) a c * asM M N (bidiag b.d b.e) a c) := by
    intro p q
    apply Real.abs_le_sqrt
    rw [pow_two]
    calc bidiag b.d b.e p q * bidiag b.d b.e p q ≤ ∑ c : Fin N, asM M N (bidiag b.d b.e) p c * asM M N (bidiag b.d b.e) p c :=
          Finset.single_le_sum (f := fun c => asM M N (bidiag b.d b.e) p c * asM M N (bidiag b.d b.e) p c) (fun _ _ => mul_self_nonneg _) (mem_univ q)
      _ ≤ _ := Finset.single_le_sum (f := fun a => ∑ c : Fin N, asM M N (bidiag b.d b.e) a c * asM M N (bidiag b.d b.e) a c)
          (fun _ _ => Finset.sum_nonneg (fun _ _ => mul_self_nonneg _)) (mem_univ p)
  generalize hS : Real.sqrt (∑ a : Fin M, ∑ c : Fin N, asM M N (bidiag b.d b.e) a c * asM M N (bidiag b.d b.e) a c) = S at *
  have hS0 : 0 ≤ S := by rw [← hS]; exact Real.sqrt_nonneg _
  rcases anorm_spec M N A d0 e0 b h with h0 | ⟨j, hj, h0⟩
  · rw [h0]; linarith
  · rw [h0]
    have hd : |b.d j| ≤ S := by
      by_cases hjM : j < M
      · have := hent ⟨j, hjM⟩ ⟨j, hj⟩
        simpa [bidiag] using this
      · rw [hdz j hj (by omega), abs_zero]; exact hS0
    have he : |b.e j| ≤ S := by
      by_cases hj0 : j = 0
      · rw [hj0, he0, abs_zero]; exact hS0
      · by_cases hjM : j ≤ M
        · have := hent ⟨j - 1, by omega⟩ ⟨j, hj⟩
          simp only [bidiag] at this
          rwa [if_neg (by omega), if_pos (by omega)] at this
        · rw [hez j hj (by omega), abs_zero]; exact hS0
    linarith
end
end TooN.GRSVD
