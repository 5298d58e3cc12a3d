import Verif.Model.Stream
import Mathlib.Tactic.Common
/-!
# C15: reading back what was written restores the object
-/
namespace TooN.Stream
variable {K : Type _}

/-- What is required of a scalar `x`: its written form is a nonempty word without whitespace, and
parsing that word gives the value back (the stream precision is high enough for `x`). -/
structure FaithfulAt (fmt : K → List Char) (parse : List Char → Option K) (x : K) : Prop where
  nonempty : fmt x ≠ []
  noWs : ∀ c, c ∈ fmt x → isWs c = false
  roundtrip : parse (fmt x) = some x

/-- every scalar survives -/
def Faithful (fmt : K → List Char) (parse : List Char → Option K) : Prop := ∀ x, FaithfulAt fmt parse x

theorem dropWhile_append_all {α} (p : α → Bool) (a b : List α) (h : ∀ x ∈ a, p x = true) :
    (a ++ b).dropWhile p = b.dropWhile p := by
  induction a with
  | nil => rfl
  | cons x a ih =>
    rw [List.cons_append, List.dropWhile_cons, if_pos (h x (by simp))]
    exact ih fun y hy => h y (by simp [hy])

theorem takeWhile_append_stop {α} (p : α → Bool) (a b : List α) (c : α) (h : ∀ x ∈ a, p x = true)
    (hc : p c = false) : (a ++ c :: b).takeWhile p = a := by
  induction a with
  | nil => simp [hc]
  | cons x a ih =>
    rw [List.cons_append, List.takeWhile_cons, if_pos (h x (by simp)), ih fun y hy => h y (by simp [hy])]

theorem dropWhile_append_stop {α} (p : α → Bool) (a b : List α) (c : α) (h : ∀ x ∈ a, p x = true)
    (hc : p c = false) : (a ++ c :: b).dropWhile p = c :: b := by
  rw [dropWhile_append_all p a _ h]; simp [hc]

/-- reading one padded scalar that is preceded by whitespace `pre` and followed by a whitespace char -/
theorem readScalar_pad {fmt : K → List Char} {parse} {x : K} (hf : FaithfulAt fmt parse x) (fw : Nat)
    (pre rest : List Char) (c : Char) (hpre : ∀ y ∈ pre, isWs y = true) (hc : isWs c = true) :
    readScalar parse (pre ++ (pad fw (fmt x) ++ c :: rest)) = some (x, c :: rest) := by
  have hsp : isWs ' ' = true := by decide
  have h1 : (pre ++ (pad fw (fmt x) ++ c :: rest)).dropWhile isWs = fmt x ++ c :: rest := by
    rw [dropWhile_append_all isWs pre _ hpre, pad, List.append_assoc,
      dropWhile_append_all isWs _ _ (by intro y hy; rw [List.eq_of_mem_replicate hy]; exact hsp)]
    cases he : fmt x with
    | nil => exact absurd he (hf.nonempty)
    | cons a l =>
      have : isWs a = false := hf.noWs a (by rw [he]; simp)
      rw [List.cons_append, List.dropWhile_cons, if_neg (by simp [this])]
  have hw : ∀ y ∈ fmt x, (!isWs y) = true := by intro y hy; simp [hf.noWs y hy]
  rw [readScalar]
  simp only [h1]
  rw [takeWhile_append_stop _ _ _ _ hw (by simp [hc]), dropWhile_append_stop _ _ _ _ hw (by simp [hc]),
    hf.roundtrip]
  rfl

theorem writeVec_eq (fmt : K → List Char) (fw n : Nat) (v : Vec K) (os : List Char) :
    writeVec fmt fw n v os = os ++ (List.range n).flatMap fun i => pad fw (fmt (v i)) ++ [' '] := by
  unfold writeVec
  induction n with
  | zero => simp
  | succ n ih => rw [forN_succ, ih, List.range_succ, List.flatMap_append]; simp [List.append_assoc]

/-- **C15** vectors: writing `v` (with any field width) and reading it into any vector `u` of the same size
gives back every element, leaves `u` beyond its size alone, and consumes the written text up to the
final blank.  Whitespace `pre` in front (left behind by an earlier read) is skipped, so objects written one after
the other are read back one after the other. -/
theorem c15_vector_roundtrip {fmt : K → List Char} {parse : List Char → Option K}
    (fw n : Nat) (v u : Vec K) (pre rest : List Char) (hpre : ∀ c ∈ pre, isWs c = true)
    (hf : ∀ i, i < n → FaithfulAt fmt parse (v i)) :
    ∃ w sp, readVec parse n u (pre ++ (writeVec fmt fw n v [] ++ rest)) = some (w, sp ++ rest) ∧
      (∀ i, i < n → w i = v i) ∧ (∀ i, n ≤ i → w i = u i) ∧ (∀ c ∈ sp, isWs c = true) := by
  rw [writeVec_eq, List.nil_append]
  have key : ∀ (k m : Nat) (rest : List Char), k + m = n → ∃ w sp,
      readVec parse k u (pre ++ (((List.range k).flatMap fun i => pad fw (fmt (v i)) ++ [' ']) ++ rest)) =
        some (w, sp ++ rest) ∧
      (∀ i, i < k → w i = v i) ∧ (∀ i, k ≤ i → w i = u i) ∧ (∀ c ∈ sp, isWs c = true) := by
    intro k
    induction k with
    | zero => intro m rest _; exact ⟨u, pre, by simp [readVec], by simp, by simp, hpre⟩
    | succ k ih =>
      intro m rest hk
      obtain ⟨w, sp, h1, h2, h3, h4⟩ := ih (m+1) (pad fw (fmt (v k)) ++ ' ' :: rest) (by omega)
      refine ⟨Vec.set w k (v k), [' '], ?_, ?_, ?_, ?_⟩
      · rw [readVec, forNM_succ]
        rw [readVec] at h1
        rw [List.range_succ, List.flatMap_append]
        simp only [List.flatMap_cons, List.flatMap_nil, List.append_nil, List.append_assoc,
          List.cons_append, List.nil_append]
        rw [h1]
        simp only [Option.bind_some]
        rw [readScalar_pad (hf k (by omega)) fw sp rest ' ' h4 (by decide)]
        rfl
      · intro i hi
        by_cases e : i = k
        · subst e; simp
        · rw [Vec.set_ne _ _ _ _ e]; exact h2 i (by omega)
      · intro i hi; rw [Vec.set_ne _ _ _ _ (by omega)]; exact h3 i (by omega)
      · intro c hc; simp at hc; subst hc; decide
  exact key n 0 rest (by omega)

/-- text of row `i`, without the newline -/
def rowText (fmt : K → List Char) (fw C : Nat) (m : Mat K) (i : Nat) : List Char :=
  (List.range C).flatMap fun j => (if j ≠ 0 then [' '] else []) ++ pad fw (fmt (m i j))

theorem writeRow_eq (fmt : K → List Char) (fw C : Nat) (m : Mat K) (i : Nat) (os : List Char) :
    forN C (fun j os => (if j ≠ 0 then os ++ [' '] else os) ++ pad fw (fmt (m i j))) os =
      os ++ rowText fmt fw C m i := by
  unfold rowText
  induction C with
  | zero => simp
  | succ n ih =>
    rw [forN_succ, ih, List.range_succ, List.flatMap_append]
    by_cases h : n = 0
    · subst h; simp
    · simp [h, List.append_assoc]

theorem writeMat_eq (fmt : K → List Char) (fw R C : Nat) (m : Mat K) (os : List Char) :
    writeMat fmt fw R C m os = os ++ (List.range R).flatMap fun i => rowText fmt fw C m i ++ ['\n'] := by
  unfold writeMat
  induction R with
  | zero => simp
  | succ n ih =>
    rw [forN_succ, ih, writeRow_eq, List.range_succ, List.flatMap_append]; simp [List.append_assoc]

/-- reading the first `k` elements of a row, when a further character follows -/
theorem readRow {fmt : K → List Char} {parse : List Char → Option K} 
    (fw r : Nat) (m u : Mat K) (k : Nat) (hf : ∀ j, j < k → FaithfulAt fmt parse (m r j)) (pre rest : List Char) (c : Char) (hc : isWs c = true)
    (hpre : ∀ y ∈ pre, isWs y = true) :
    ∃ w sp, forNM k (fun c (st : Mat K × List Char) =>
        (readScalar parse st.2).bind fun (x, is) => some (Mat.set st.1 r c x, is))
        (u, pre ++ (rowText fmt fw k m r ++ c :: rest)) = some (w, sp ++ c :: rest) ∧
      (∀ i j, w i j = if i = r ∧ j < k then m i j else u i j) ∧ (∀ y ∈ sp, isWs y = true) := by
  induction k generalizing c rest with
  | zero => exact ⟨u, pre, by simp [rowText], by simp, hpre⟩
  | succ k ih =>
    by_cases hk : k = 0
    · subst hk
      refine ⟨Mat.set u r 0 (m r 0), [], ?_, ?_, by simp⟩
      · have : rowText fmt fw 1 m r = pad fw (fmt (m r 0)) := by simp [rowText]
        rw [forNM_succ, this]
        simp only [forNM_zero, Option.bind_some]
        rw [readScalar_pad (hf 0 (by omega)) fw pre rest c hpre hc]
        rfl
      · intro i j
        rw [Mat.set]
        by_cases e : i = r ∧ j = 0
        · rw [if_pos e, if_pos (by omega), e.1, e.2]
        · rw [if_neg e, if_neg (by omega)]
    · obtain ⟨w, sp, h1, h2, h3⟩ := ih (fun j hj => hf j (by omega)) (pad fw (fmt (m r k)) ++ c :: rest) ' ' (by decide)
      refine ⟨Mat.set w r k (m r k), [], ?_, ?_, by simp⟩
      · have e : rowText fmt fw (k+1) m r = rowText fmt fw k m r ++ (' ' :: pad fw (fmt (m r k))) := by
          rw [rowText, List.range_succ, List.flatMap_append]; simp [hk, rowText]
        rw [forNM_succ, e]
        simp only [List.append_assoc, List.cons_append] at h1 ⊢
        rw [h1]
        simp only [Option.bind_some]
        have := readScalar_pad (hf k (by omega)) fw (sp ++ [' ']) rest c
          (by intro y hy; simp at hy; rcases hy with hy | hy
              · exact h3 y hy
              · subst hy; decide) hc
        rw [List.append_assoc] at this
        simp only [List.cons_append, List.nil_append] at this
        rw [this]; rfl
      · intro i j
        rw [Mat.set]
        by_cases e : i = r ∧ j = k
        · rw [if_pos e, if_pos (by omega), e.1, e.2]
        · rw [if_neg e, h2]
          by_cases e2 : i = r ∧ j < k
          · rw [if_pos e2, if_pos (by omega)]
          · rw [if_neg e2, if_neg (by omega)]

/-- **C15** matrices. -/
theorem c15_matrix_roundtrip {fmt : K → List Char} {parse : List Char → Option K}
    (fw R C : Nat) (m u : Mat K) (pre rest : List Char) (hpre : ∀ c ∈ pre, isWs c = true)
    (hf : ∀ r c, r < R → c < C → FaithfulAt fmt parse (m r c)) :
    ∃ w sp, readMat parse R C u (pre ++ (writeMat fmt fw R C m [] ++ rest)) = some (w, sp ++ rest) ∧
      (∀ r c, r < R → c < C → w r c = m r c) ∧ (∀ r c, ¬ (r < R ∧ c < C) → w r c = u r c) ∧
      (∀ c ∈ sp, isWs c = true) := by
  rw [writeMat_eq, List.nil_append]
  have key : ∀ (k : Nat) (rest : List Char), k ≤ R → ∃ w sp,
      readMat parse k C u (pre ++ (((List.range k).flatMap fun i => rowText fmt fw C m i ++ ['\n']) ++ rest)) =
        some (w, sp ++ rest) ∧
      (∀ r c, w r c = if r < k ∧ c < C then m r c else u r c) ∧ (∀ c ∈ sp, isWs c = true) := by
    intro k
    induction k with
    | zero => intro rest _; exact ⟨u, pre, by simp [readMat], by simp, hpre⟩
    | succ k ih =>
      intro rest hkR
      obtain ⟨w, sp, h1, h2, h3⟩ := ih (rowText fmt fw C m k ++ '\n' :: rest) (by omega)
      obtain ⟨w', sp', g1, g2, g3⟩ := readRow fw k m w C (fun j hj => hf k j (by omega) hj) sp rest '\n'
        (by decide) h3
      refine ⟨w', sp' ++ ['\n'], ?_, ?_, ?_⟩
      · rw [readMat, forNM_succ]
        rw [readMat] at h1
        rw [List.range_succ, List.flatMap_append]
        simp only [List.flatMap_cons, List.flatMap_nil, List.append_nil, List.append_assoc,
          List.cons_append, List.nil_append]
        rw [h1]
        simp only [Option.bind_some]
        exact g1
      · intro r c
        rw [g2, h2]
        by_cases e : r = k ∧ c < C
        · rw [if_pos e, if_pos (by omega)]
        · rw [if_neg e]
          by_cases e2 : r < k ∧ c < C
          · rw [if_pos e2, if_pos (by omega)]
          · rw [if_neg e2, if_neg (by omega)]
      · intro c hc
        simp at hc
        rcases hc with hc | hc
        · exact g3 c hc
        · subst hc; decide
  obtain ⟨w, sp, h1, h2, h3⟩ := key R rest (Nat.le_refl R)
  exact ⟨w, sp, h1, fun r c hr hc => by rw [h2, if_pos ⟨hr, hc⟩], fun r c h => by rw [h2, if_neg h], h3⟩

/-- a faithful scalar format exists: booleans as `0`/`1` -/
example : Faithful (fun b : Bool => if b then ['1'] else ['0'])
    (fun l => if l = ['1'] then some true else if l = ['0'] then some false else none) :=
  fun x => by cases x <;> exact ⟨by decide, by decide, by decide⟩

example : writeMat (fun b : Bool => if b then ['1'] else ['0']) 2 2 2 (fun i j => i == j) [] =
    " 1  0\n 0  1\n".toList := by decide

end TooN.Stream
