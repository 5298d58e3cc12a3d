import Verif.Proof.Assign
/-!
# C07 (Resizable), C08 (assignment and overlap), C09 (compound assignment through views), C51 (swap)
-/
namespace TooN.View
variable {K : Type _}

/-- The view does not alias itself (holds for every view reachable from an owner: `c02_no_self_alias`). -/
def VView.Inj (v : VView) : Prop := ∀ i j, i < v.len → j < v.len → v.addr i = v.addr j → i = j
def MView.Inj (m : MView) : Prop := ∀ r c r' c', r < m.rows → c < m.cols → r' < m.rows → c' < m.cols →
  m.addr r c = m.addr r' c' → r = r' ∧ c = c'

/-- The two views have no cell in common. -/
def VView.Disjoint (a b : VView) : Prop := ∀ i j, i < a.len → j < b.len → a.addr i ≠ b.addr j
def MView.Disjoint (a b : MView) : Prop := ∀ r c r' c', r < a.rows → c < a.cols → r' < b.rows →
  c' < b.cols → a.addr r c ≠ b.addr r' c'

/-- No cell is overwritten before it is read: the exact hazard condition for an ascending copy. -/
def VView.NoHazard (dst src : VView) : Prop := ∀ i j, i < j → j < dst.len → dst.addr i ≠ src.addr j

theorem vlist_pairwise (dst src : VView) (hi : dst.Inj) (hh : dst.NoHazard src) :
    (vlist dst src).Pairwise (fun a b => a.1 ≠ b.1 ∧ a.1 ≠ b.2) := by
  rw [vlist, List.pairwise_map]
  refine List.Pairwise.imp_of_mem ?_ (List.pairwise_lt_range (n := dst.len))
  intro a b ha hb hab
  simp only [List.mem_range] at ha hb
  exact ⟨fun e => by have := hi a b ha hb e; omega, hh a b hab hb⟩

/-- **C08 / C09** `dst op= src` (and, with `op _ y = y`, plain assignment) gives every destination
element `op old_dst old_src` and changes no other cell, provided no source cell is overwritten
before it is read. -/
theorem c09_compound_vector (op : K → K → K) (dst src : VView) (hi : dst.Inj)
    (hh : dst.NoHazard src) (mem : Mem K) :
    (∀ i, i < dst.len → compoundV op dst src mem (dst.addr i) = op (mem (dst.addr i)) (mem (src.addr i))) ∧
    (∀ q, (∀ i, i < dst.len → dst.addr i ≠ q) → compoundV op dst src mem q = mem q) := by
  rw [compoundV_eq]
  refine ⟨fun i hlt => ?_, fun q hq => ?_⟩
  · exact exec_correct op _ mem (vlist_pairwise dst src hi hh) (dst.addr i, src.addr i)
      (by simp only [vlist, List.mem_map, List.mem_range]; exact ⟨i, hlt, rfl⟩)
  · apply exec_frame
    intro p hp
    simp only [vlist, List.mem_map, List.mem_range] at hp
    obtain ⟨i, hlt, rfl⟩ := hp
    exact hq i hlt

/-- **C08** vector assignment. -/
theorem c08_assign_vector (dst src : VView) (hi : dst.Inj) (hh : dst.NoHazard src) (mem : Mem K) :
    (∀ i, i < dst.len → assignV dst src mem (dst.addr i) = mem (src.addr i)) ∧
    (∀ q, (∀ i, i < dst.len → dst.addr i ≠ q) → assignV dst src mem q = mem q) :=
  c09_compound_vector (fun _ y => y) dst src hi hh mem

/-- Disjoint views, and a view and itself, have no hazard. -/
theorem c08_noHazard_disjoint (dst src : VView) (h : dst.Disjoint src) (hl : dst.len = src.len) :
    dst.NoHazard src := fun i j hij hj => h i j (by omega) (by omega)
theorem c08_noHazard_self (v : VView) (h : v.Inj) : v.NoHazard v :=
  fun i j hij hj e => by have := h i j (by omega) hj e; omega

example : (VView.mk 0 3 2).Inj ∧ (VView.mk 0 3 2).Disjoint (VView.mk 1 3 2) := by
  constructor
  · intro i j _ _ h; simp [VView.addr] at h; omega
  · intro i j _ _ h; simp [VView.addr] at h; omega

/-- **C08** shifting down is safe: `v.slice(0,n) = v.slice(k,n)` copies correctly although the two
slices overlap. -/
theorem c08_shift_down (off n k : Nat) (mem : Mem K) (i : Nat) (hi : i < n) :
    assignV ⟨off, n, 1⟩ ⟨off + k, n, 1⟩ mem (off + i) = mem (off + k + i) := by
  have := (c08_assign_vector ⟨off, n, 1⟩ ⟨off + k, n, 1⟩
    (fun i j _ _ h => by simpa [VView.addr] using h)
    (fun i j hij hj e => by simp [VView.addr] at e; omega) mem).1 i hi
  simpa [VView.addr] using this

/-- **C08, hazard**: shifting up by one, `v.slice(1,n) = v.slice(0,n)`, smears the first element. -/
theorem c08_shift_up_smears (off n : Nat) (mem : Mem K) (i : Nat) (hi : i ≤ n) :
    assignV ⟨off + 1, n, 1⟩ ⟨off, n, 1⟩ mem (off + i) = mem off := by
  have key : ∀ k, ∀ j, j ≤ k → forN k (fun i m => poke m ((VView.mk (off+1) n 1).addr i)
      (m ((VView.mk off n 1).addr i))) mem (off + j) = mem off := by
    intro k
    induction k with
    | zero => intro j hj; have : j = 0 := by omega
              subst this; rfl
    | succ k ih =>
      intro j hj
      rw [forN_succ]
      simp only [poke, VView.addr, Nat.mul_one]
      by_cases e : off + j = off + 1 + k
      · rw [if_pos e]; simpa [VView.addr] using ih k (Nat.le_refl _)
      · rw [if_neg e]; simpa [VView.addr] using ih j (by omega)
  exact key n i hi

example : assignV ⟨1, 3, 1⟩ ⟨0, 3, 1⟩ (fun i => i + 10) 3 = 10 := by decide

/-- **C08 / C09** matrices: `dst op= src` for disjoint views. -/
theorem c09_compound_matrix (op : K → K → K) (dst src : MView) (hi : dst.Inj)
    (hs : dst.rows = src.rows ∧ dst.cols = src.cols) (hd : dst.Disjoint src ∨ dst = src) (mem : Mem K) :
    (∀ r c, r < dst.rows → c < dst.cols →
      compoundM op dst src mem (dst.addr r c) = op (mem (dst.addr r c)) (mem (src.addr r c))) ∧
    (∀ q, (∀ r c, r < dst.rows → c < dst.cols → dst.addr r c ≠ q) → compoundM op dst src mem q = mem q) := by
  rw [compoundM_eq]
  have hp : (mlist dst src).Pairwise (fun a b => a.1 ≠ b.1 ∧ a.1 ≠ b.2) := by
    rw [mlist, List.pairwise_map]
    refine List.Pairwise.imp_of_mem ?_ (pairs_pairwise dst.rows dst.cols)
    rintro ⟨r, c⟩ ⟨r', c'⟩ ha hb hab
    rw [mem_pairs] at ha hb
    have hne : dst.addr r c ≠ dst.addr r' c' := by
      intro e
      have := hi r c r' c' ha.1 ha.2 hb.1 hb.2 e
      simp only [before] at hab
      omega
    refine ⟨hne, ?_⟩
    rcases hd with hd | hd
    · exact hd r c r' c' ha.1 ha.2 (by omega) (by omega)
    · rw [← hd]; exact hne
  refine ⟨fun r c hr hc => ?_, fun q hq => ?_⟩
  · exact exec_correct op _ mem hp (dst.addr r c, src.addr r c)
      (by simp only [mlist, List.mem_map]; exact ⟨(r, c), (mem_pairs _ _ _ _).2 ⟨hr, hc⟩, rfl⟩)
  · apply exec_frame
    intro p hp
    simp only [mlist, List.mem_map] at hp
    obtain ⟨⟨r, c⟩, h, rfl⟩ := hp
    rw [mem_pairs] at h
    exact hq r c h.1 h.2

/-- **C08** matrix assignment between disjoint (or identical) views. -/
theorem c08_assign_matrix (dst src : MView) (hi : dst.Inj)
    (hs : dst.rows = src.rows ∧ dst.cols = src.cols) (hd : dst.Disjoint src ∨ dst = src) (mem : Mem K) :
    (∀ r c, r < dst.rows → c < dst.cols → assignM dst src mem (dst.addr r c) = mem (src.addr r c)) ∧
    (∀ q, (∀ r c, r < dst.rows → c < dst.cols → dst.addr r c ≠ q) → assignM dst src mem q = mem q) :=
  c09_compound_matrix (fun _ y => y) dst src hi hs hd mem

/-- **C09** in-place scalar operations `v *= s`, `v /= s`. -/
theorem c09_scalar_vector (f : K → K) (dst : VView) (hi : dst.Inj) (mem : Mem K) :
    (∀ i, i < dst.len → scalarV f dst mem (dst.addr i) = f (mem (dst.addr i))) ∧
    (∀ q, (∀ i, i < dst.len → dst.addr i ≠ q) → scalarV f dst mem q = mem q) :=
  c09_compound_vector (fun x _ => f x) dst dst hi (c08_noHazard_self dst hi) mem

/-- **C09** in-place scalar operations on matrices. -/
theorem c09_scalar_matrix (f : K → K) (dst : MView) (hi : dst.Inj) (mem : Mem K) :
    (∀ r c, r < dst.rows → c < dst.cols → scalarM f dst mem (dst.addr r c) = f (mem (dst.addr r c))) ∧
    (∀ q, (∀ r c, r < dst.rows → c < dst.cols → dst.addr r c ≠ q) → scalarM f dst mem q = mem q) :=
  c09_compound_matrix (fun x _ => f x) dst dst hi ⟨rfl, rfl⟩ (Or.inr rfl) mem

example : (MView.mk 0 2 3 3 1).Inj := by
  intro r c r' c' _ _ _ _ h
  simp [MView.addr] at *
  omega

/-- **C08, documented hazard**: `M = M.T()` on a square matrix does not transpose; it mirrors the
lower triangle into the upper one. -/
theorem c08_transpose_in_place (m : MView) (hsq : m.rows = m.cols) (hi : m.Inj) (mem : Mem K)
    (r c : Nat) (hr : r < m.rows) (hc : c < m.cols) :
    assignM m m.T mem (m.addr r c) = mem (m.addr (max r c) (min r c)) := by
  -- after processing all index pairs in a prefix of the row-major order
  have key : ∀ (L : List (Nat × Nat)) (done : List (Nat × Nat)), done ++ L = pairs m.rows m.cols →
      ∀ (cur : Mem K),
      (∀ r c, r < m.rows → c < m.cols → cur (m.addr r c) =
        if (r, c) ∈ done then mem (m.addr (max r c) (min r c)) else mem (m.addr r c)) →
      ∀ r c, r < m.rows → c < m.cols →
        L.foldl (fun s p => poke s (m.addr p.1 p.2) (s (m.T.addr p.1 p.2))) cur (m.addr r c) =
          mem (m.addr (max r c) (min r c)) := by
    intro L
    induction L with
    | nil =>
      intro done hd cur hcur r c hr hc
      rw [List.foldl_nil, hcur r c hr hc, if_pos]
      rw [List.append_nil] at hd; rw [hd]; exact (mem_pairs _ _ _ _).2 ⟨hr, hc⟩
    | cons p L ih =>
      intro done hd cur hcur
      rw [List.foldl_cons]
      refine ih (done ++ [p]) (by simpa using hd) _ ?_
      intro r c hr hc
      obtain ⟨a, b⟩ := p
      have hab : a < m.rows ∧ b < m.cols := by
        rw [← mem_pairs, ← hd]; simp
      have hT : m.T.addr a b = m.addr b a := by simp [MView.T, MView.addr]; omega
      have pw := pairs_pairwise m.rows m.cols
      rw [← hd, List.pairwise_append] at pw
      obtain ⟨-, pw2, pw3⟩ := pw
      rw [List.pairwise_cons] at pw2
      simp only [poke, hT]
      by_cases e : m.addr r c = m.addr a b
      · obtain ⟨rfl, rfl⟩ := hi _ _ _ _ hr hc hab.1 hab.2 e
        rw [if_pos rfl, if_pos (by simp), hcur c r (by omega) (by omega)]
        by_cases hrc : r ≤ c
        · -- (c,r) not done yet (or equal)
          by_cases hre : r = c
          · subst hre; simp
          · rw [if_neg, Nat.max_eq_right hrc, Nat.min_eq_left hrc]
            intro hmem
            have := pw3 _ hmem _ List.mem_cons_self
            simp only [before] at this; omega
        · rw [if_pos, Nat.max_comm, Nat.min_comm]
          -- (c,r) with c < r precedes (r,c)
          have hin : (c, r) ∈ done ++ (r, c) :: L := by
            rw [hd, mem_pairs]; omega
          rcases List.mem_append.1 hin with h | h
          · exact h
          · rcases List.mem_cons.1 h with h | h
            · simp at h; omega
            · have := pw2.1 _ h
              simp only [before] at this; omega
      · rw [if_neg e, hcur r c hr hc]
        have hne : (r, c) ≠ (a, b) := fun h => e (by cases h; rfl)
        simp [hne]
  rw [assignM, forN_nested m.rows m.cols (fun r c s => poke s (m.addr r c) (s (m.T.addr r c)))]
  refine key (pairs m.rows m.cols) [] rfl mem ?_ r c hr hc
  intro r c _ _; simp

/-- non-vacuity and concreteness: 2×2 row-major. -/
example : (MView.mk 0 2 2 2 1).Inj ∧
    (List.range 4).map (assignM (MView.mk 0 2 2 2 1) (MView.mk 0 2 2 2 1).T (fun i => i)) = [0,2,2,3] := by
  refine ⟨?_, by decide⟩
  intro r c r' c' _ _ _ _ h
  simp [MView.addr] at *
  omega

/-- **C51** elementwise `swap(a,b)` of non-overlapping vectors exchanges their contents and touches
nothing else. -/
theorem c51_swap_exchanges (a b : VView) (hl : a.len = b.len) (ha : a.Inj) (hb : b.Inj)
    (hd : a.Disjoint b) (mem : Mem K) :
    (∀ i, i < a.len → swapV a b mem (a.addr i) = mem (b.addr i) ∧ swapV a b mem (b.addr i) = mem (a.addr i)) ∧
    (∀ q, (∀ i, i < a.len → a.addr i ≠ q ∧ b.addr i ≠ q) → swapV a b mem q = mem q) := by
  have key : ∀ k, k ≤ a.len →
      (∀ i, i < a.len → (forN k (fun i m => poke (poke m (a.addr i) (m (b.addr i))) (b.addr i)
          (m (a.addr i))) mem) (a.addr i) = if i < k then mem (b.addr i) else mem (a.addr i)) ∧
      (∀ i, i < a.len → (forN k (fun i m => poke (poke m (a.addr i) (m (b.addr i))) (b.addr i)
          (m (a.addr i))) mem) (b.addr i) = if i < k then mem (a.addr i) else mem (b.addr i)) ∧
      (∀ q, (∀ i, i < a.len → a.addr i ≠ q ∧ b.addr i ≠ q) → (forN k (fun i m => poke (poke m (a.addr i)
          (m (b.addr i))) (b.addr i) (m (a.addr i))) mem) q = mem q) := by
    intro k
    induction k with
    | zero => intro _; simp
    | succ k ih =>
      intro hk
      obtain ⟨h1, h2, h3⟩ := ih (by omega)
      refine ⟨?_, ?_, ?_⟩
      · intro i hi
        rw [forN_succ]
        simp only [poke]
        rw [if_neg (hd i k hi (by omega))]
        by_cases e : i = k
        · subst e; rw [if_pos rfl, if_pos (by omega), h2 i hi, if_neg (by omega)]
        · rw [if_neg (fun h => e (ha i k hi (by omega) h)), h1 i hi]
          by_cases h : i < k
          · rw [if_pos h, if_pos (by omega)]
          · rw [if_neg h, if_neg (by omega)]
      · intro i hi
        rw [forN_succ]
        simp only [poke]
        by_cases e : i = k
        · subst e; rw [if_pos rfl, if_pos (by omega), h1 i hi, if_neg (by omega)]
        · rw [if_neg (fun h => e (hb i k (by omega) (by omega) h)),
            if_neg (fun h => hd k i (by omega) (by omega) h.symm), h2 i hi]
          by_cases h : i < k
          · rw [if_pos h, if_pos (by omega)]
          · rw [if_neg h, if_neg (by omega)]
      · intro q hq
        rw [forN_succ]
        simp only [poke]
        rw [if_neg (fun h => (hq k (by omega)).2 h.symm), if_neg (fun h => (hq k (by omega)).1 h.symm),
          h3 q hq]
  obtain ⟨h1, h2, h3⟩ := key a.len (Nat.le_refl _)
  refine ⟨fun i hi => ⟨?_, ?_⟩, h3⟩
  · have := h1 i hi; rw [if_pos hi] at this; exact this
  · have := h2 i hi; rw [if_pos hi] at this; exact this

/-- **C51** swapping twice restores everything. -/
theorem c51_swap_twice (a b : VView) (hl : a.len = b.len) (ha : a.Inj) (hb : b.Inj)
    (hd : a.Disjoint b) (mem : Mem K) : swapV a b (swapV a b mem) = mem := by
  funext q
  obtain ⟨h1, h2⟩ := c51_swap_exchanges a b hl ha hb hd (swapV a b mem)
  obtain ⟨k1, k2⟩ := c51_swap_exchanges a b hl ha hb hd mem
  by_cases hq : ∃ i, i < a.len ∧ (a.addr i = q ∨ b.addr i = q)
  · obtain ⟨i, hi, h | h⟩ := hq
    · rw [← h, (h1 i hi).1, (k1 i hi).2]
    · rw [← h, (h1 i hi).2, (k1 i hi).1]
  · have : ∀ i, i < a.len → a.addr i ≠ q ∧ b.addr i ≠ q :=
      fun i hi => ⟨fun h => hq ⟨i, hi, Or.inl h⟩, fun h => hq ⟨i, hi, Or.inr h⟩⟩
    rw [h2 q this, k2 q this]

example : (List.range 6).map (swapV (VView.mk 0 3 2) (VView.mk 1 3 2) (fun i => i)) = [1,0,3,2,5,4] := by
  decide

end TooN.View

namespace TooN.Resize
variable {K : Type _}

/-- **C07** `resize(n)` gives size `n` and keeps the first `min n old` elements; new elements hold
the debug value, or zero. -/
theorem c07_resize (cfg : Config K) (zero : K) (l : List K) (n : Nat) :
    ∃ l', resize cfg zero l n = .ok l' ∧ l'.length = n ∧
      (∀ i, i < n → i < l.length → l'[i]? = l[i]?) ∧
      (∀ i, i < n → l.length ≤ i → l'[i]? = some (cfg.getD zero)) := by
  unfold resize
  by_cases h : n > l.length
  · simp only [h, if_true]
    have hne : stdResize zero l n ≠ [] := by
      intro e
      have := congrArg List.length e
      simp [stdResize] at this; omega
    refine ⟨debugInit cfg l.length (stdResize zero l n), by simp [dataPtr, hne], ?_, ?_, ?_⟩
    · cases cfg <;> simp [debugInit, stdResize] <;> omega
    · intro i h1 h2
      cases cfg with
      | none =>
        simp only [debugInit, stdResize]
        rw [List.getElem?_append_left (by simp; omega), List.getElem?_take, if_pos h1]
      | some x =>
        simp only [debugInit, stdResize]
        rw [List.getElem?_append_left (by simp; omega), List.getElem?_take, if_pos h2,
          List.getElem?_append_left (by simp; omega), List.getElem?_take, if_pos h1]
    · intro i h1 h2
      cases cfg with
      | none =>
        simp only [debugInit, stdResize, Option.getD_none]
        rw [List.getElem?_append_right (by simp; omega), List.getElem?_replicate, if_pos]
        simp; omega
      | some x =>
        simp only [debugInit, stdResize, Option.getD_some]
        rw [List.getElem?_append_right (by simp; omega), List.getElem?_replicate, if_pos]
        simp; omega
  · simp only [h, if_false]
    refine ⟨_, rfl, by simp [stdResize]; omega, ?_, by intro i h1 h2; omega⟩
    intro i h1 h2
    simp only [stdResize]
    rw [List.getElem?_append_left (by simp; omega), List.getElem?_take, if_pos h1]

example : resize (none : Config Nat) 0 [1,2,3] 5 = .ok [1,2,3,0,0] ∧
    resize (some 99) 0 [1,2,3] 5 = .ok [1,2,3,99,99] ∧ resize (none : Config Nat) 0 [1,2,3] 2 = .ok [1,2] := by
  decide

theorem debugInit_length (cfg : Config K) (l : List K) : (debugInit cfg 0 l).length = l.length := by
  cases cfg <;> simp [debugInit]

theorem stdResize_length (zero : K) (l : List K) (n : Nat) : (stdResize zero l n).length = n := by
  simp [stdResize]; omega

/-- **C07** assigning any unrelated nonempty vector to a Resizable vector gives it that vector's size
and contents, whatever its previous size, in every build configuration. -/
theorem c07_assign_other_partial (cfg : Config K) (zero : K) (v src : List K) (h : src ≠ []) :
    assignOther cfg zero v src = .ok src := by
  have hlen : src.length ≠ 0 := fun e => h (List.length_eq_zero_iff.1 e)
  have hne : stdResize zero v src.length ≠ [] := by
    intro e
    have := congrArg List.length e
    rw [stdResize_length] at this; simp at this; exact h this
  have hl : (debugInit cfg 0 (stdResize zero v src.length)).length = src.length := by
    rw [debugInit_length, stdResize_length]
  unfold assignOther tryDestructiveResize
  simp only [dataPtr, hne, if_false, Outcome.bind_ok, hl, ne_eq, not_true_eq_false]
  generalize debugInit cfg 0 (stdResize zero v src.length) = w at hl
  have key : ∀ k, k ≤ src.length → forN k (fun i (o : Outcome (List K)) => o.bind fun v' => store v' i src[i]?) (.ok w) = .ok (src.take k ++ w.drop k) := by
    intro k
    induction k with
    | zero => intro _; simp
    | succ k ih =>
      intro hk
      rw [forN_succ, ih (by omega)]
      have hk' : k < src.length := by omega
      simp only [Outcome.bind_ok, List.getElem?_eq_getElem hk', store]
      rw [if_pos (by simp; omega)]
      congr 1
      rw [List.set_append_right _ _ (by simp; omega)]
      have : k - (src.take k).length = 0 := by simp; omega
      rw [this, List.drop_eq_getElem_cons (by omega : k < w.length), List.set_cons_zero,
        List.take_succ_eq_append_getElem hk', List.append_assoc]
      rfl
  rw [key _ (Nat.le_refl _), List.drop_eq_nil_of_le (by omega)]
  simp

example : assignOther (none : Config Nat) 0 [1,2,3] [7,8] = .ok [7,8] := by decide

/-- **C07** self-assignment leaves a nonempty Resizable vector unchanged in the default
configuration. -/
theorem c07_self_assign_partial (zero : K) (v : List K) (h : v ≠ []) :
    assignOwnSlice none zero v 0 v.length = .ok v := by
  have hs : stdResize zero v v.length = v := by simp [stdResize]
  unfold assignOwnSlice tryDestructiveResize
  simp only [hs, dataPtr, h, if_false, Outcome.bind_ok, debugInit, ne_eq, not_true_eq_false]
  have key : ∀ k, k ≤ v.length → forN k (fun i (o : Outcome (List K)) => o.bind fun v' => store v' i v'[0 + i]?) (.ok v) = .ok v := by
    intro k
    induction k with
    | zero => intro _; rfl
    | succ k ih =>
      intro hk
      rw [forN_succ, ih (by omega)]
      have hk' : k < v.length := by omega
      simp [List.getElem?_eq_getElem hk', hk', store]
  exact key _ (Nat.le_refl _)

example : ([5,6] : List Nat) ≠ [] := by decide

/-- **C07, negative**: with debug initialisation enabled, self-assignment destroys the contents:
every element becomes the debug value. -/
theorem c07_self_assign_debug_destroys (x zero : K) (v : List K) (h : v ≠ []) :
    assignOwnSlice (some x) zero v 0 v.length = .ok (List.replicate v.length x) := by
  have hs : stdResize zero v v.length = v := by simp [stdResize]
  have h0 : 0 < v.length := by
    cases v with
    | nil => exact absurd rfl h
    | cons a l => simp
  unfold assignOwnSlice tryDestructiveResize
  simp only [hs, dataPtr, h, if_false, Outcome.bind_ok, debugInit, List.take_zero, List.nil_append,
    Nat.sub_zero, List.length_replicate, ne_eq, not_true_eq_false]
  have key : ∀ k, k ≤ v.length → forN k (fun i (o : Outcome (List K)) => o.bind fun v' => store v' i v'[0 + i]?) (.ok (List.replicate v.length x)) = .ok (List.replicate v.length x) := by
    intro k
    induction k with
    | zero => intro _; rfl
    | succ k ih =>
      intro hk
      rw [forN_succ, ih (by omega)]
      have hk' : k < v.length := by omega
      simp [hk', List.getElem?_replicate, store]
  exact key _ (Nat.le_refl _)

/-- **C07, negative**: assigning an *empty* vector to a Resizable vector evaluates `&numbers[0]` on
an empty `std::vector`, which is undefined behaviour. -/
theorem c07_assign_empty_ub (cfg : Config K) (zero : K) (v : List K) :
    assignOther cfg zero v [] = .ub := by
  simp [assignOther, tryDestructiveResize, stdResize, dataPtr]

/-- **C07, negative**: assigning a proper suffix slice of a Resizable vector to itself reads past the
end of the already shrunk buffer. -/
theorem c07_self_slice_ub (cfg : Config K) (zero : K) (v : List K) (start len : Nat)
    (h : start + len ≤ v.length) (hs : 0 < start) (hl : 0 < len) :
    assignOwnSlice cfg zero v start len = .ub := by
  have hne : stdResize zero v len ≠ [] := by
    intro e
    have := congrArg List.length e
    rw [stdResize_length] at this; simp at this; omega
  have hlen : (debugInit cfg 0 (stdResize zero v len)).length = len := by
    rw [debugInit_length, stdResize_length]
  unfold assignOwnSlice tryDestructiveResize
  simp only [dataPtr, hne, if_false, Outcome.bind_ok, hlen, ne_eq, not_true_eq_false]
  generalize debugInit cfg 0 (stdResize zero v len) = w at hlen
  have key : ∀ k, k ≤ len → ∃ o, forN k (fun i (o : Outcome (List K)) => o.bind fun v' => store v' i v'[start + i]?) (.ok w) = o ∧ ((∃ w', o = .ok w' ∧ w'.length = len ∧ start + k ≤ len) ∨
        (o = .ub ∧ len < start + k) ∨ (k = 0 ∧ o = .ok w)) := by
    intro k
    induction k with
    | zero => intro _; exact ⟨_, rfl, Or.inr (Or.inr ⟨rfl, rfl⟩)⟩
    | succ k ih =>
      intro hk
      obtain ⟨o, ho, hcase⟩ := ih (by omega)
      refine ⟨_, rfl, ?_⟩
      rw [forN_succ, ho]
      have step : ∀ w' : List K, w'.length = len →
          (∃ w'', store w' k w'[start + k]? = .ok w'' ∧ w''.length = len ∧ start + (k+1) ≤ len) ∨
          (store w' k w'[start + k]? = .ub ∧ len < start + (k+1)) := by
        intro w' hw'
        by_cases hin : start + k < len
        · left
          rw [List.getElem?_eq_getElem (by omega : start + k < w'.length)]
          exact ⟨_, if_pos (by omega), by simp [hw'], by omega⟩
        · right
          rw [List.getElem?_eq_none (by omega)]
          exact ⟨rfl, by omega⟩
      rcases hcase with ⟨w', rfl, hw', _⟩ | ⟨rfl, hlt⟩ | ⟨rfl, rfl⟩
      · rcases step w' hw' with h' | h'
        · exact Or.inl h'
        · exact Or.inr (Or.inl h')
      · exact Or.inr (Or.inl ⟨rfl, by omega⟩)
      · rcases step w hlen with h' | h'
        · exact Or.inl h'
        · exact Or.inr (Or.inl h')
  obtain ⟨o, ho, hcase⟩ := key len (Nat.le_refl _)
  rw [ho]
  rcases hcase with ⟨w', _, _, hle⟩ | ⟨h', _⟩ | ⟨h', _⟩
  · omega
  · exact h'
  · omega

example : assignOwnSlice (none : Config Nat) 0 [1,2,3] 1 2 = .ub := by decide

end TooN.Resize
