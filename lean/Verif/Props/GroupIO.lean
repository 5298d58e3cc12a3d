import Verif.Model.GroupIO
import Verif.Props.Stream
import Verif.Props.SO2
import Verif.Props.SO3Ln
import Verif.Props.SL
/-!
# C59: reading back a written transformation gives the same transformation; whatever is read is a valid one
-/
set_option linter.unusedSectionVars false
set_option linter.unusedVariables false
namespace TooN.GroupIO
open TooN.Stream TooN.Lie Matrix

theorem asM_congr {n : Nat} {a b : Mat ℝ} (h : ∀ r c, r < n → c < n → a r c = b r c) : asM n n a = asM n n b := by
  ext i j; exact h i j i.2 j.2

section
variable {fmt : ℝ → List Char} {parse : List Char → Option ℝ}

/-- **C59** SO2: an orthogonal matrix written with any field width and read into any object comes back unchanged,
whatever whitespace precedes it and whatever follows. -/
theorem c59_so2 (fw : Nat) (m u : Mat ℝ) (pre rest : List Char) (hpre : ∀ c ∈ pre, isWs c = true)
    (hf : ∀ r c, r < 2 → c < 2 → FaithfulAt fmt parse (m r c)) (hm : IsRot (asM 2 2 m)) :
    ∃ sp, so2Read parse u (pre ++ (write fmt fw 2 m [] ++ rest)) = some (some (asM 2 2 m), sp ++ rest) ∧
      ∀ c ∈ sp, isWs c = true := by
  obtain ⟨w, sp, h1, h2, -, h4⟩ := c15_matrix_roundtrip fw 2 2 m u pre rest hpre hf
  refine ⟨sp, ?_, h4⟩
  rw [so2Read, write, h1]
  simp only [Option.bind_some]
  rw [asM_congr h2, c33_coerce_rotation _ hm.orth]

/-- **C59** SO3. -/
theorem c59_so3 (fw : Nat) (m u : Mat ℝ) (pre rest : List Char) (hpre : ∀ c ∈ pre, isWs c = true)
    (hf : ∀ r c, r < 3 → c < 3 → FaithfulAt fmt parse (m r c)) (hm : IsRot (asM 3 3 m)) :
    ∃ sp, so3Read parse u (pre ++ (write fmt fw 3 m [] ++ rest)) = some (some (.ok (asM 3 3 m)), sp ++ rest) ∧
      ∀ c ∈ sp, isWs c = true := by
  obtain ⟨w, sp, h1, h2, -, h4⟩ := c15_matrix_roundtrip fw 3 3 m u pre rest hpre hf
  refine ⟨sp, ?_, h4⟩
  rw [so3Read, write, h1]
  simp only [Option.bind_some]
  rw [asM_congr h2, c36_coerce_rotation _ hm]

/-- **C59** SL(N). -/
theorem c59_sl (fw N : Nat) (hN : 0 < N) (m u : Mat ℝ) (pre rest : List Char) (hpre : ∀ c ∈ pre, isWs c = true)
    (hf : ∀ r c, r < N → c < N → FaithfulAt fmt parse (m r c)) (hm : (asM N N m).det = 1) :
    ∃ m' sp, slRead parse N u (pre ++ (write fmt fw N m [] ++ rest)) = some (.ok (some m'), sp ++ rest) ∧
      asM N N m' = asM N N m ∧ ∀ c ∈ sp, isWs c = true := by
  obtain ⟨w, sp, h1, h2, -, h4⟩ := c15_matrix_roundtrip fw N N m u pre rest hpre hf
  have hw := asM_congr h2
  obtain ⟨m', s, g1, -, -, -, g5⟩ := SL.c41_coerce N hN w (by rw [hw, hm]; exact one_pos)
  refine ⟨m', sp, ?_, ?_, h4⟩
  · rw [slRead, write, h1]
    simp only [Option.bind_some]
    rw [g1]
  · rw [g5 (by rw [hw, hm]), hw]

/-- the text of row `i` of an `SE` object -/
def seRow (fmt : ℝ → List Char) (fw n : Nat) (R : Mat ℝ) (t : Vec ℝ) (i : Nat) : List Char :=
  writeVec fmt fw n (R i) [] ++ pad fw (fmt (t i)) ++ ['\n']

theorem seWrite_eq (fmt : ℝ → List Char) (fw n k : Nat) (R : Mat ℝ) (t : Vec ℝ) (os : List Char) :
    forN k (fun i os => writeVec fmt fw n (R i) os ++ pad fw (fmt (t i)) ++ ['\n']) os =
      os ++ (List.range k).flatMap (seRow fmt fw n R t) := by
  induction k with
  | zero => simp
  | succ k ih =>
    rw [forN_succ, ih, List.range_succ, List.flatMap_append, writeVec_eq]
    simp [seRow, writeVec_eq, List.append_assoc]

/-- **C59** layout: the text of an SE object is the text of the `n × (n+1)` matrix `[R | t]`. -/
theorem c59_se_layout (fmt : ℝ → List Char) (fw n : Nat) (R : Mat ℝ) (t : Vec ℝ) (os : List Char) :
    seWrite fmt fw n R t os = writeMat fmt fw n (n + 1) (fun r c => if c < n then R r c else t r) os := by
  rw [seWrite, seWrite_eq, writeMat_eq]
  congr 2
  funext i
  have h : ∀ k, k ≤ n → writeVec fmt fw k (R i) [] =
      rowText fmt fw k (fun r c => if c < n then R r c else t r) i ++ (if k = 0 then [] else [' ']) := by
    intro k
    induction k with
    | zero => intro _; simp [writeVec, rowText]
    | succ k ih =>
      intro hk
      have e : writeVec fmt fw (k + 1) (R i) [] = writeVec fmt fw k (R i) [] ++ (pad fw (fmt (R i k)) ++ [' ']) := by
        rw [writeVec, forN_succ, ← writeVec, List.append_assoc]
      rw [e, ih (by omega), rowText, rowText, List.range_succ, List.flatMap_append]
      by_cases h0 : k = 0
      · subst h0; simp [show 0 < n by omega]
      · simp [h0, show k < n by omega, List.append_assoc]
  rw [seRow, h n le_rfl]
  have e : ∀ k, rowText fmt fw (k + 1) (fun r c => if c < n then R r c else t r) i =
      rowText fmt fw k (fun r c => if c < n then R r c else t r) i ++
        ((if k ≠ 0 then [' '] else []) ++ pad fw (fmt (if k < n then R i k else t i))) := by
    intro k; rw [rowText, List.range_succ, List.flatMap_append]; simp [rowText]
  rw [e]
  by_cases h0 : n = 0
  · subst h0; simp
  · simp [h0, List.append_assoc]

/-- the rows come back -/
theorem seRows_roundtrip (fw n : Nat) (R uR : Mat ℝ) (t ut : Vec ℝ) (pre rest : List Char)
    (hpre : ∀ c ∈ pre, isWs c = true) (hR : ∀ r c, r < n → c < n → FaithfulAt fmt parse (R r c))
    (ht : ∀ r, r < n → FaithfulAt fmt parse (t r)) :
    ∃ w wt sp, seReadRows parse n uR ut (pre ++ (seWrite fmt fw n R t [] ++ rest)) = some ((w, wt), sp ++ rest) ∧
      (∀ r c, r < n → c < n → w r c = R r c) ∧ (∀ r, r < n → wt r = t r) ∧ (∀ c ∈ sp, isWs c = true) := by
  rw [seWrite, seWrite_eq, List.nil_append]
  unfold seReadRows
  have key : ∀ k, k ≤ n → ∀ rest, ∃ w wt sp,
      forNM k (fun i (st : (Mat ℝ × Vec ℝ) × List Char) => (readVec parse n (st.1.1 i) st.2).bind fun (row, is) =>
        (readScalar parse is).bind fun (x, is) =>
        some ((fun r c => if r = i then row c else st.1.1 r c, Vec.set st.1.2 i x), is))
        ((uR, ut), pre ++ ((List.range k).flatMap (seRow fmt fw n R t) ++ rest)) = some ((w, wt), sp ++ rest) ∧
      (∀ r c, r < k → c < n → w r c = R r c) ∧ (∀ r, r < k → wt r = t r) ∧ (∀ c ∈ sp, isWs c = true) := by
    intro k
    induction k with
    | zero => intro _ rest; exact ⟨uR, ut, pre, by simp, by omega, by omega, hpre⟩
    | succ k ih =>
      intro hk rest
      obtain ⟨w, wt, sp, h1, h2, h3, h4⟩ := ih (by omega) (seRow fmt fw n R t k ++ rest)
      obtain ⟨row, sp', g1, g2, -, g4⟩ := c15_vector_roundtrip fw n (R k) (w k) sp
        (pad fw (fmt (t k)) ++ '\n' :: rest) h4 (fun i hi => hR k i (by omega) hi)
      refine ⟨fun r c => if r = k then row c else w r c, Vec.set wt k (t k), ['\n'], ?_, ?_, ?_, ?_⟩
      · rw [forNM_succ, List.range_succ, List.flatMap_append]
        simp only [List.flatMap_cons, List.flatMap_nil, List.append_nil, List.append_assoc]
        rw [h1]
        simp only [Option.bind_some, seRow, List.append_assoc, List.cons_append, List.nil_append]
        rw [g1]
        simp only [Option.bind_some]
        rw [readScalar_pad (ht k (by omega)) fw sp' rest '\n' g4 (by decide)]
        rfl
      · intro r c hr hc
        by_cases e : r = k
        · subst e; simp [g2 c hc]
        · simp only [e, if_false]; exact h2 r c (by omega) hc
      · intro r hr
        by_cases e : r = k
        · subst e; simp
        · rw [Vec.set_ne _ _ _ _ e]; exact h3 r (by omega)
      · intro c hc; simp at hc; subst hc; decide
  exact key n le_rfl rest

/-- **C59** SE2. -/
theorem c59_se2 (fw : Nat) (R uR : Mat ℝ) (t ut : Vec ℝ) (pre rest : List Char) (hpre : ∀ c ∈ pre, isWs c = true)
    (hR : ∀ r c, r < 2 → c < 2 → FaithfulAt fmt parse (R r c)) (ht : ∀ r, r < 2 → FaithfulAt fmt parse (t r))
    (hm : IsRot (asM 2 2 R)) :
    ∃ sp, se2Read parse uR ut (pre ++ (seWrite fmt fw 2 R t [] ++ rest)) =
        some (some ⟨asM 2 2 R, asV 2 t⟩, sp ++ rest) ∧ ∀ c ∈ sp, isWs c = true := by
  obtain ⟨w, wt, sp, h1, h2, h3, h4⟩ := seRows_roundtrip fw 2 R uR t ut pre rest hpre hR ht
  refine ⟨sp, ?_, h4⟩
  rw [se2Read, h1]
  simp only [Option.bind_some]
  rw [asM_congr h2, c33_coerce_rotation _ hm.orth, Option.map_some,
    show asV 2 wt = asV 2 t from funext fun i => h3 i i.2]

/-- **C59** SE3. -/
theorem c59_se3 (fw : Nat) (R uR : Mat ℝ) (t ut : Vec ℝ) (pre rest : List Char) (hpre : ∀ c ∈ pre, isWs c = true)
    (hR : ∀ r c, r < 3 → c < 3 → FaithfulAt fmt parse (R r c)) (ht : ∀ r, r < 3 → FaithfulAt fmt parse (t r))
    (hm : IsRot (asM 3 3 R)) :
    ∃ sp, se3Read parse uR ut (pre ++ (seWrite fmt fw 3 R t [] ++ rest)) =
        some (some (.ok ⟨asM 3 3 R, asV 3 t⟩), sp ++ rest) ∧ ∀ c ∈ sp, isWs c = true := by
  obtain ⟨w, wt, sp, h1, h2, h3, h4⟩ := seRows_roundtrip fw 3 R uR t ut pre rest hpre hR ht
  refine ⟨sp, ?_, h4⟩
  rw [se3Read, h1]
  simp only [Option.bind_some]
  rw [asM_congr h2, c36_coerce_rotation _ hm, Option.map_some,
    show asV 3 wt = asV 3 t from funext fun i => h3 i i.2]

end

/-- an SO3 after `coerce` is a rotation -/
theorem coerce3_valid {m r : M 3} (h : coerce3 m = some (.ok r)) : IsRot r := by
  have hd : m.det ≠ 0 := by
    intro hd; rw [(c36_coerce_fails_iff m).2 hd] at h; nomatch h
  rcases lt_or_gt_of_ne hd with hh | hh
  · rw [(c36_coerce m hd).2 hh] at h; nomatch h
  · obtain ⟨r', e, hr, -⟩ := (c36_coerce m hd).1 hh
    rw [e] at h; injection h with h; injection h with h; exact h ▸ hr

/-- **C59** whatever text is read (written by hand, truncated decimals …), the SO3 read from it is a rotation, or the
read failed, aborted, or divided by zero (dependent rows). -/
theorem c59_so3_valid (parse : List Char → Option ℝ) (u : Mat ℝ) (is rest : List Char) (r : M 3)
    (h : so3Read parse u is = some (some (.ok r), rest)) : IsRot r := by
  rw [so3Read] at h
  cases e : readMat parse 3 3 u is with
  | none => rw [e] at h; nomatch h
  | some p =>
    rw [e] at h
    simp only [Option.bind_some, Option.some.injEq, Prod.mk.injEq] at h
    exact coerce3_valid h.1

theorem c59_se3_valid (parse : List Char → Option ℝ) (uR : Mat ℝ) (ut : Vec ℝ) (is rest : List Char) (a : SE 3)
    (h : se3Read parse uR ut is = some (some (.ok a), rest)) : IsRot a.R := by
  rw [se3Read] at h
  cases e : seReadRows parse 3 uR ut is with
  | none => rw [e] at h; nomatch h
  | some p =>
    rw [e] at h
    simp only [Option.bind_some, Option.some.injEq, Prod.mk.injEq] at h
    obtain ⟨h, -⟩ := h
    cases e2 : coerce3 (asM 3 3 p.1.1) with
    | none => rw [e2] at h; nomatch h
    | some o =>
      rw [e2] at h
      cases o with
      | ok r => simp at h; rw [← h]; exact coerce3_valid e2
      | abort => simp at h
      | ub => simp at h

/-- the SO2/SE2 read is orthogonal (it may be a reflection: `c33_coerce_reflection_wrong`) -/
theorem coerce2_valid {m r : M 2} (h : coerce2 m = some r) : r * rᵀ = 1 := by
  have hd : m.det ≠ 0 := by
    intro hd; rw [(c33_coerce_fails_iff m).2 hd] at h; nomatch h
  obtain ⟨r', e, hr, -⟩ := c33_coerce m hd
  rw [e] at h; injection h with h; exact h ▸ hr

theorem c59_so2_valid (parse : List Char → Option ℝ) (u : Mat ℝ) (is rest : List Char) (r : M 2)
    (h : so2Read parse u is = some (some r, rest)) : r * rᵀ = 1 := by
  rw [so2Read] at h
  cases e : readMat parse 2 2 u is with
  | none => rw [e] at h; nomatch h
  | some p =>
    rw [e] at h
    simp only [Option.bind_some, Option.some.injEq, Prod.mk.injEq] at h
    exact coerce2_valid h.1

theorem c59_se2_valid (parse : List Char → Option ℝ) (uR : Mat ℝ) (ut : Vec ℝ) (is rest : List Char) (a : SE 2)
    (h : se2Read parse uR ut is = some (some a, rest)) : a.R * a.Rᵀ = 1 := by
  rw [se2Read] at h
  cases e : seReadRows parse 2 uR ut is with
  | none => rw [e] at h; nomatch h
  | some p =>
    rw [e] at h
    simp only [Option.bind_some, Option.some.injEq, Prod.mk.injEq] at h
    obtain ⟨h, -⟩ := h
    cases e2 : coerce2 (asM 2 2 p.1.1) with
    | none => rw [e2] at h; nomatch h
    | some o => rw [e2] at h; simp at h; rw [← h]; exact coerce2_valid e2

/-- **C59** an SL(N) that comes out of a read without NaNs has determinant one. -/
theorem c59_sl_valid (parse : List Char → Option ℝ) (N : Nat) (hN : 2 ≤ N) (u : Mat ℝ) (is rest : List Char) (m : Mat ℝ)
    (h : slRead parse N u is = some (.ok (some m), rest)) : (asM N N m).det = 1 := by
  rw [slRead] at h
  cases e : readMat parse N N u is with
  | none => rw [e] at h; nomatch h
  | some p =>
    rw [e] at h
    simp only [Option.bind_some, Option.some.injEq, Prod.mk.injEq] at h
    obtain ⟨h, -⟩ := h
    rcases lt_trichotomy (asM N N p.1).det 0 with hd | hd | hd
    · rw [(SL.c41_coerce_other N p.1).2 hN hd] at h; simp at h
    · rw [(SL.c41_coerce_other N p.1).1 hd] at h; nomatch h
    · obtain ⟨m', s, g1, -, -, g4, -⟩ := SL.c41_coerce N (by omega) p.1 hd
      rw [g1] at h; injection h with h; injection h with h; exact h ▸ g4

/-- the hypotheses are met: a quarter turn with its entries written as `1`, `0`, `-1` -/
example : ∃ (fmt : ℝ → List Char) (parse : List Char → Option ℝ) (m : Mat ℝ), IsRot (asM 2 2 m) ∧
    m 0 1 = -1 ∧ ∀ r c, r < 2 → c < 2 → FaithfulAt fmt parse (m r c) := by
  classical
  refine ⟨fun x => if x = 0 then ['0'] else if x = 1 then ['1'] else ['-', '1'],
    fun w => if w = ['0'] then some 0 else if w = ['1'] then some 1 else some (-1),
    fun r c => if r = c then 0 else if r < c then -1 else 1, ⟨?_, ?_⟩, by simp, ?_⟩
  · ext i j; fin_cases i <;> fin_cases j <;> simp [Matrix.mul_apply, Fin.sum_univ_two, asM]
  · rw [det_fin_two]; simp [asM]
  · intro r c hr hc
    have hr : r = 0 ∨ r = 1 := by omega
    have hc : c = 0 ∨ c = 1 := by omega
    have e1 : (1:ℝ) ≠ 0 := one_ne_zero
    have e2 : (-1:ℝ) ≠ 0 := by norm_num
    have e3 : (-1:ℝ) ≠ 1 := by norm_num
    rcases hr with rfl | rfl <;> rcases hc with rfl | rfl <;>
      constructor <;> simp [isWs, e1, e2, e3]

end TooN.GroupIO
