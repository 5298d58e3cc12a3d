import Verif.Model.Cholesky
import Verif.Spec.SymPosDef
import Verif.Proof.Ops
import Mathlib.LinearAlgebra.Matrix.Block
import Mathlib.LinearAlgebra.Matrix.NonsingularInverse
import Mathlib.Tactic.Common
import Mathlib.Tactic.Ring
import Mathlib.Tactic.FieldSimp
import Mathlib.Tactic.LinearCombination
/-! Proofs about the Cholesky model. -/
set_option linter.unusedSectionVars false
namespace TooN.Chol
open Finset

section gen
/-! ### structure of the loops, for any element type -/
variable {K : Type _} [Zero K] [One K] [Add K] [Sub K] [Mul K] [Div K] [DecidableEq K]

theorem val_congr (m m' : Mat K) (row col : Nat) (h0 : m row col = m' row col)
    (h1 : ∀ k, k < col → m k col = m' k col) (h2 : ∀ k, k < col → m row k = m' row k) :
    val m row col = val m' row col := by
  unfold val
  rw [h0]
  exact forN_congr _ _ _ _ (fun k t hk => by rw [h1 k hk, h2 k hk])

/-- storage after the rows `< hi` of column `col` are done -/
def colRes (hi col : Nat) (m : Mat K) : Mat K := fun r c =>
  if r = col ∧ c = col then val m col col
  else if r = col ∧ col < c ∧ c < hi then val m c col
  else if c = col ∧ col < r ∧ r < hi then val m r col * (1 / val m col col)
  else m r c

theorem colBody_spec (n col : Nat) (hc : col < n) (m : Mat K) (inv : K) :
    colBody n col (.run m inv) = if val m col col = 0 then .ret (Mat.set m col col 0) col
      else .run (colRes n col m) (1 / val m col col) := by
  have key := forRange_inv (fun row (s : St K) => s =
      if row = col then .run m 1 else
        if val m col col = 0 then .ret (Mat.set m col col 0) col
        else .run (colRes row col m) (1 / val m col col)) col n (by omega) (rowBody col) (.run m 1)
    (by rw [if_pos rfl])
    (by
      intro row s h1 h2 hs
      rw [if_neg (by omega : ¬ row + 1 = col)]
      by_cases e : row = col
      · subst e
        rw [if_pos rfl] at hs
        subst hs
        simp only [rowBody, if_true]
        by_cases hv : val m row row = 0
        · rw [if_pos hv, if_pos hv, hv]
        · rw [if_neg hv, if_neg hv]
          congr 1
          funext r c
          unfold colRes Mat.set
          by_cases h : r = row ∧ c = row
          · rw [if_pos h, if_pos h]
          · rw [if_neg h, if_neg h, if_neg (by omega), if_neg (by omega)]
      · rw [if_neg e] at hs
        by_cases hv : val m col col = 0
        · rw [if_pos hv] at hs ⊢
          subst hs; rfl
        · rw [if_neg hv] at hs ⊢
          subst hs
          have hval : val (colRes row col m) row col = val m row col := by
            apply val_congr
            · unfold colRes; rw [if_neg (by omega), if_neg (by omega), if_neg (by omega)]
            · intro k hk; unfold colRes; rw [if_neg (by omega), if_neg (by omega), if_neg (by omega)]
            · intro k hk; unfold colRes; rw [if_neg (by omega), if_neg (by omega), if_neg (by omega)]
          simp only [rowBody, if_neg e, hval]
          congr 1
          funext r c
          unfold colRes Mat.set
          by_cases g1 : r = row ∧ c = col
          · obtain ⟨rfl, rfl⟩ := g1
            rw [if_pos ⟨rfl, rfl⟩, if_neg (by omega), if_neg (by omega), if_pos (by omega)]
          · rw [if_neg g1]
            by_cases g2 : r = col ∧ c = row
            · obtain ⟨rfl, rfl⟩ := g2
              rw [if_pos ⟨rfl, rfl⟩, if_neg (by omega), if_pos (by omega)]
            · rw [if_neg g2]
              beta_reduce
              by_cases g3 : r = col ∧ c = col
              · rw [if_pos g3, if_pos g3]
              · rw [if_neg g3, if_neg g3]
                by_cases g4 : r = col ∧ col < c ∧ c < row
                · rw [if_pos g4, if_pos (by omega)]
                · rw [if_neg g4, if_neg (by omega : ¬ (r = col ∧ col < c ∧ c < row + 1))]
                  by_cases g5 : c = col ∧ col < r ∧ r < row
                  · rw [if_pos g5, if_pos (by omega)]
                  · rw [if_neg g5, if_neg (by omega)])
  rw [if_neg (by omega)] at key
  exact key

theorem colRes_lt (n col : Nat) (m : Mat K) (r j : Nat) (hr : r ≠ col) (hj : j ≠ col) :
    colRes n col m r j = m r j := by
  unfold colRes; rw [if_neg (by omega), if_neg (by omega), if_neg (by omega)]

theorem fwd_gen (n : Nat) (m : Mat K) (v u : Vec K) (i : Nat) (hi : i < n) :
    fwd n m v u i = forN i (fun j val => val - m i j * fwd n m v u j) (v i) := by
  have := forN_inv (fun k (y : Vec K) => ∀ i, i < k → y i = forN i (fun j val => val - m i j * y j) (v i)) n
    (fun i y => Vec.set y i (forN i (fun j val => val - m i j * y j) (v i))) u
    (by intro i hi; omega)
    (by
      intro k y hk hy i hi
      by_cases e : i = k
      · subst e
        rw [Vec.set_self]
        apply forN_congr
        intro j t hj
        rw [Vec.set_ne _ _ _ _ (by omega)]
      · rw [Vec.set_ne _ _ _ _ e, hy i (by omega)]
        apply forN_congr
        intro j t hj
        rw [Vec.set_ne _ _ _ _ (by omega)])
  exact this i hi

theorem bwd_gen (n : Nat) (m : Mat K) (y w : Vec K) (i : Nat) (hi : i < n) :
    bwd n m y w i = forRange (i+1) n (fun j val => val - m j i * bwd n m y w j) (y i) := by
  have := forDown_inv (fun k (x : Vec K) => ∀ i, k ≤ i → i < n →
      x i = forRange (i+1) n (fun j val => val - m j i * x j) (y i)) n
    (fun i x => Vec.set x i (forRange (i+1) n (fun j val => val - m j i * x j) (y i))) w
    (by intro i h1 h2; omega)
    (by
      intro k x hk hx i h1 h2
      by_cases e : i = k
      · subst e
        rw [Vec.set_self]
        apply forRange_congr
        intro j t hj _
        rw [Vec.set_ne _ _ _ _ (by omega)]
      · rw [Vec.set_ne _ _ _ _ e, hx i (by omega) h2]
        apply forRange_congr
        intro j t hj _
        rw [Vec.set_ne _ _ _ _ (by omega)])
  exact this i (by omega) hi

theorem divDiag_some (n : Nat) (m : Mat K) (y : Vec K) (hd : ∀ i, i < n → m i i ≠ 0) :
    divDiag n m y = some (fun i => if i < n then y i / m i i else y i) := by
  obtain ⟨s, h1, h2⟩ := forNM_total (fun k (s : Vec K) => s = fun i => if i < k then y i / m i i else y i) n
    (fun i y => if m i i = 0 then none else some (Vec.set y i (y i / m i i))) y
    (by funext i; simp)
    (by
      intro k t hk ht
      refine ⟨_, by rw [if_neg (hd k hk)], ?_⟩
      subst ht
      funext i
      unfold Vec.set
      beta_reduce
      by_cases e : i = k
      · subst e; rw [if_pos rfl, if_neg (by omega : ¬ i < i), if_pos (by omega : i < i + 1)]
      · rw [if_neg e]
        by_cases e2 : i < k
        · rw [if_pos e2, if_pos (by omega)]
        · rw [if_neg e2, if_neg (by omega)])
  rw [divDiag, h1, h2]

theorem divDiag_none (n : Nat) (m : Mat K) (y : Vec K) (k : Nat) (hk : k < n) (h0 : m k k = 0) :
    divDiag n m y = none := by
  unfold divDiag
  have : ∀ j, j ≤ n → k < j → forNM j (fun i y => if m i i = 0 then none else some (Vec.set y i (y i / m i i))) y = none := by
    intro j
    induction j with
    | zero => intro _ h; omega
    | succ j ih =>
      intro hj hkj
      rw [forNM_succ]
      by_cases e : j = k
      · subst e
        cases forNM j (fun i y => if m i i = 0 then none else some (Vec.set y i (y i / m i i))) y with
        | none => rfl
        | some t => rw [Option.bind_some, if_pos h0]
      · rw [ih (by omega) (by omega)]; rfl
  exact this n (le_refl _) hk

theorem forN_row (i : Nat) (g : Nat → Vec K) (b : Vec K) (k : Nat) :
    forN i (fun j (val : Vec K) => fun k => val k - g j k) b k = forN i (fun j v => v - g j k) (b k) := by
  induction i with
  | zero => rfl
  | succ i ih => rw [forN_succ, forN_succ, ih]

theorem forRange_row' (lo hi : Nat) (g : Nat → Vec K) (b : Vec K) (k : Nat) :
    forRange lo hi (fun j (val : Vec K) => fun k => val k - g j k) b k =
      forRange lo hi (fun j v => v - g j k) (b k) := by
  unfold forRange; exact forN_row _ (fun j => g (lo + j)) b k

theorem fwdM_col (n nc : Nat) (m B y : Mat K) (k : Nat) (hk : k < nc) :
    (fun i => fwdM n nc m B y i k) = fwd n m (fun i => B i k) (fun i => y i k) := by
  unfold fwdM fwd
  induction n with
  | zero => rfl
  | succ n ih =>
    rw [forN_succ, forN_succ, ← ih]
    funext r
    unfold setRow Vec.set
    by_cases e : r = n
    · subst e
      rw [if_pos ⟨rfl, hk⟩, if_pos rfl, forN_row]
    · rw [if_neg (by tauto), if_neg e]

theorem bwdM_col (n nc : Nat) (m y x : Mat K) (k : Nat) (hk : k < nc) :
    (fun i => bwdM n nc m y x i k) = bwd n m (fun i => y i k) (fun i => x i k) := by
  unfold bwdM bwd
  have : ∀ (t : Nat) (x : Mat K),
      (fun i => forDown t (fun i x => setRow x i nc
        (forRange (i+1) n (fun j (val : Vec K) => fun k => val k - m j i * x j k) (y i))) x i k) =
      forDown t (fun i x => Vec.set x i (forRange (i+1) n (fun j val => val - m j i * x j) (y i k)))
        (fun i => x i k) := by
    intro t
    induction t with
    | zero => intro x; rfl
    | succ t ih =>
      intro x
      rw [forDown_succ]
      have := ih (setRow x t nc
        (forRange (t+1) n (fun j (val : Vec K) => fun k => val k - m j t * x j k) (y t)))
      simp only [forDown_succ]
      rw [this]
      congr 1
      funext r
      unfold setRow Vec.set
      by_cases e : r = t
      · subst e
        rw [if_pos ⟨rfl, hk⟩, if_pos rfl, forRange_row']
      · rw [if_neg (by tauto), if_neg e]
  exact this n x

theorem getUnscaledL_apply (n : Nat) (m u : Mat K) (r c : Nat) (hr : r < n) (hc : c < n) :
    getUnscaledL n m u r c = if c < r then m r c else if r = c then 1 else 0 := by
  unfold getUnscaledL
  have := forRange_inv (fun k (L : Mat K) => ∀ r c, r < n → c < n → L r c =
      if c < r ∧ r < k then m r c else if r = c then 1 else 0) 1 n (by omega)
    (fun i L => forN i (fun j L => Mat.set L i j (m i j)) L)
    (fun r c => if r < n ∧ c < n then (if r = c then 1 else 0) else u r c)
    (by intro r c hr hc; rw [if_pos ⟨hr, hc⟩, if_neg (by omega : ¬ (c < r ∧ r < 1))])
    (by
      intro i L h1 h2 hL r c hr hc
      have hrow := forN_inv (fun j (L' : Mat K) => ∀ r c, L' r c = if r = i ∧ c < j then m r c else L r c) i
        (fun j L => Mat.set L i j (m i j)) L (by intro r c; rw [if_neg (by omega)])
        (by
          intro j L' hj hL' r c
          unfold Mat.set
          by_cases e : r = i ∧ c = j
          · rw [if_pos e, if_pos (by omega), e.1, e.2]
          · rw [if_neg e, hL']
            by_cases e2 : r = i ∧ c < j
            · rw [if_pos e2, if_pos (by omega)]
            · rw [if_neg e2, if_neg (by omega)])
      rw [hrow]
      by_cases e : r = i ∧ c < i
      · rw [if_pos e, if_pos (by omega)]
      · rw [if_neg e, hL r c hr hc]
        by_cases e2 : c < r ∧ r < i
        · rw [if_pos e2, if_pos (by omega)]
        · rw [if_neg e2, if_neg (by omega : ¬ (c < r ∧ r < i + 1))])
  rw [this r c hr hc]
  by_cases e : c < r
  · rw [if_pos ⟨e, hr⟩, if_pos e]
  · rw [if_neg (by omega), if_neg e]

theorem getD_apply (n : Nat) (m u : Mat K) (r c : Nat) (hr : r < n) (hc : c < n) :
    getD n m u r c = if r = c then m r r else 0 := by
  unfold getD
  have := forN_inv (fun k (D : Mat K) => ∀ r c, r < n → c < n → D r c =
      if r = c ∧ r < k then m r r else 0) n (fun i D => Mat.set D i i (m i i))
    (fun r c => if r < n ∧ c < n then 0 else u r c)
    (by intro r c hr hc; rw [if_pos ⟨hr, hc⟩, if_neg (by omega)])
    (by
      intro i D hi hD r c hr hc
      unfold Mat.set
      by_cases e : r = i ∧ c = i
      · rw [if_pos e, if_pos (by omega), e.1]
      · rw [if_neg e, hD r c hr hc]
        by_cases e2 : r = c ∧ r < i
        · rw [if_pos e2, if_pos (by omega)]
        · rw [if_neg e2, if_neg (by omega)])
  rw [this r c hr hc]
  by_cases e : r = c
  · rw [if_pos ⟨e, hr⟩, if_pos e]
  · rw [if_neg (by tauto), if_neg e]

theorem getL_apply (sqrt : K → K) (n : Nat) (m u : Mat K) (r c : Nat) (hr : r < n) (hc : c < n) :
    getL sqrt n m u r c = if c < r then m r c * sqrt (m c c) else if r = c then sqrt (m c c) else 0 := by
  unfold getL
  have := forN_inv (fun k (L : Mat K) => ∀ r c, r < n → c < n → L r c =
      if c < k then (if c < r then m r c * sqrt (m c c) else if r = c then sqrt (m c c) else 0) else 0) n
    (fun j L => forRange (j+1) n (fun i L => Mat.set L i j (m i j * sqrt (m j j)))
    (Mat.set L j j (sqrt (m j j)))) (fun r c => if r < n ∧ c < n then 0 else u r c)
    (by intro r c hr hc; rw [if_pos ⟨hr, hc⟩, if_neg (by omega)])
    (by
      intro j L hj hL r c hr hc
      have hcol := forRange_inv (fun k (L' : Mat K) => ∀ r c, L' r c =
          if c = j ∧ j < r ∧ r < k then m r j * sqrt (m j j) else if r = j ∧ c = j then sqrt (m j j) else L r c) (j+1) n
        (by omega) (fun i L => Mat.set L i j (m i j * sqrt (m j j))) (Mat.set L j j (sqrt (m j j)))
        (by intro r c; rw [if_neg (by omega)]; rfl)
        (by
          intro i L' h1 h2 hL' r c
          by_cases e : r = i ∧ c = j
          · obtain ⟨rfl, rfl⟩ := e
            rw [Mat.set_self, if_pos (by omega)]
          · rw [Mat.set_ne _ _ _ _ _ _ e, hL']
            by_cases e2 : c = j ∧ j < r ∧ r < i
            · rw [if_pos e2, if_pos (by omega)]
            · rw [if_neg e2, if_neg (by omega : ¬ (c = j ∧ j < r ∧ r < i + 1))])
      rw [hcol]
      by_cases e : c = j
      · subst e
        rw [if_pos (by omega : c < c + 1)]
        by_cases e2 : c < r
        · rw [if_pos (by omega), if_pos e2]
        · rw [if_neg (by omega), if_neg e2]
          by_cases e3 : r = c
          · rw [if_pos ⟨e3, rfl⟩, if_pos e3]
          · rw [if_neg (by tauto), if_neg e3, hL r c hr hc, if_neg (by omega)]
      · rw [if_neg (by omega), if_neg (by tauto), hL r c hr hc]
        by_cases e2 : c < j
        · rw [if_pos e2, if_pos (by omega : c < j + 1)]
        · rw [if_neg e2, if_neg (by omega : ¬ c < j + 1)])
  rw [this r c hr hc, if_pos hc]

theorem divDiagM_gen (n nc : Nat) (m y : Mat K) (hd : ∀ i, i < n → m i i ≠ 0) :
    divDiagM n nc m y = some (fun i k => if i < n ∧ k < nc then y i k * (1 / m i i) else y i k) := by
  obtain ⟨s, h1, h2⟩ := forNM_total (fun t (s : Mat K) => s = fun i k => if i < t ∧ k < nc then y i k * (1 / m i i) else y i k) n
    (fun i y => if m i i = 0 then none else some (setRow y i nc (fun k => y i k * (1 / m i i)))) y
    (by funext i k; simp)
    (by
      intro k t hk ht
      refine ⟨_, by rw [if_neg (hd k hk)], ?_⟩
      subst ht
      funext i c
      unfold setRow
      beta_reduce
      by_cases e : i = k ∧ c < nc
      · obtain ⟨rfl, hc⟩ := e
        rw [if_pos ⟨rfl, hc⟩, if_pos (by omega : i < i + 1 ∧ c < nc), if_neg (by omega)]
      · rw [if_neg e]
        by_cases e2 : i < k ∧ c < nc
        · rw [if_pos e2, if_pos (by omega)]
        · rw [if_neg e2, if_neg (by omega)])
  rw [divDiagM, h1, h2]

end gen

variable {K : Type _} [Field K] [DecidableEq K]

theorem forN_sub (n : Nat) (f : Nat → K) (a : K) :
    forN n (fun i s => s - f i) a = a - ∑ i ∈ range n, f i := by
  induction n with
  | zero => simp
  | succ n ih => rw [forN_succ, ih, sum_range_succ]; ring

theorem forRange_sub (lo hi : Nat) (f : Nat → K) (a : K) :
    forRange lo hi (fun i s => s - f i) a = a - ∑ i ∈ Ico lo hi, f i := by
  by_cases h : lo ≤ hi
  · exact forRange_inv (fun k s => s = a - ∑ i ∈ Ico lo k, f i) lo hi h _ a (by simp)
      (by intro i t h1 h2 ht; rw [ht, sum_Ico_succ_top h1]; ring)
  · rw [forRange_empty _ _ (by omega), Ico_eq_empty (by omega)]; simp

theorem val_eq (m : Mat K) (row col : Nat) :
    val m row col = m row col - ∑ k ∈ range col, m k col * m row k := forN_sub col _ _

/-- the leading `k × k` lower half of `A` is that of `L D Lᵀ` -/
def Fact (k : Nat) (A m : Mat K) : Prop := ∀ c r, c ≤ r → r < k →
  A r c = ∑ j ∈ range c, m c j * m j j * m r j + (if r = c then m c c else m r c * m c c)

/-- loop invariant -/
structure Inv (n : Nat) (A : Mat K) (col : Nat) (m : Mat K) : Prop where
  diag : ∀ c, c < col → m c c ≠ 0
  cache : ∀ c r, c < col → c < r → r < n → m c r = m r c * m c c
  fact : ∀ c r, c < col → c ≤ r → r < n →
    A r c = ∑ j ∈ range c, m c j * m j j * m r j + (if r = c then m c c else m r c * m c c)
  rest : ∀ r c, (col ≤ r ∧ col ≤ c) → m r c = A r c

theorem val_inv {n col : Nat} {A m : Mat K} (h : Inv n A col m) (r : Nat) (hr : col ≤ r) (hcn : col < n) :
    val m r col = A r col - ∑ j ∈ range col, m col j * m j j * m r j := by
  rw [val_eq, h.rest r col ⟨hr, le_refl _⟩]
  congr 1
  apply sum_congr rfl
  intro j hj
  rw [h.cache j col (mem_range.1 hj) (mem_range.1 hj) hcn]

theorem colRes_inv {n col : Nat} {A m : Mat K} (hcn : col < n) (h : Inv n A col m)
    (hv : val m col col ≠ 0) : Inv n A (col+1) (colRes n col m) := by
  have hdd : colRes n col m col col = val m col col := by
    unfold colRes; rw [if_pos ⟨rfl, rfl⟩]
  have hlow : ∀ r, col < r → r < n → colRes n col m r col = val m r col * (1 / val m col col) := by
    intro r h1 h2; unfold colRes; rw [if_neg (by omega), if_neg (by omega), if_pos (by omega)]
  have hj : ∀ r j, j < col → colRes n col m r j = m r j := by
    intro r j hj; unfold colRes; rw [if_neg (by omega), if_neg (by omega), if_neg (by omega)]
  refine ⟨?_, ?_, ?_, ?_⟩
  · intro c hc
    by_cases e : c = col
    · subst e; rw [hdd]; exact hv
    · rw [hj c c (by omega)]; exact h.diag c (by omega)
  · intro c r hc hcr hrn
    by_cases e : c = col
    · subst e
      rw [hdd, hlow r hcr hrn]
      have : colRes n c m c r = val m r c := by
        unfold colRes; rw [if_neg (by omega), if_pos (by omega)]
      rw [this]; field_simp
    · have : colRes n col m c r = m c r := by
        unfold colRes; rw [if_neg (by omega), if_neg (by omega), if_neg (by omega)]
      rw [this, hj r c (by omega), hj c c (by omega)]
      exact h.cache c r (by omega) hcr hrn
  · intro c r hc hcr hrn
    have hsum : ∑ j ∈ range c, colRes n col m c j * colRes n col m j j * colRes n col m r j =
        ∑ j ∈ range c, m c j * m j j * m r j := by
      apply sum_congr rfl
      intro j hjj
      have := mem_range.1 hjj
      rw [hj c j (by omega), hj j j (by omega), hj r j (by omega)]
    rw [hsum]
    by_cases e : c = col
    · subst e
      by_cases e2 : r = c
      · subst e2
        rw [if_pos rfl, hdd, val_inv h r (le_refl _) hcn]; ring
      · rw [if_neg e2, hlow r (by omega) hrn, hdd]
        have : val m r c * (1 / val m c c) * val m c c = val m r c := by field_simp
        rw [this, val_inv h r hcr hcn]; ring
    · rw [h.fact c r (by omega) hcr hrn, hj c c (by omega), hj r c (by omega)]
  · intro r c hrc
    rw [colRes_lt _ _ _ _ _ (by omega) (by omega)]
    exact h.rest r c ⟨by omega, by omega⟩

/-- invariant on states -/
def SInv (n : Nat) (A : Mat K) (col : Nat) : St K → Prop
  | .run m _ => Inv n A col m
  | .ret m k => k < n ∧ (∀ c, c < k → m c c ≠ 0) ∧ m k k = 0 ∧ Fact (k+1) A m

theorem compute_inv (n : Nat) (A : Mat K) : SInv n A n (forN n (colBody n) (.run A 1)) := by
  refine forN_inv (SInv n A) n (colBody n) (.run A 1)
    ⟨fun c hc => by omega, fun c r hc => by omega, fun c r hc => by omega, fun _ _ _ => rfl⟩ ?_
  intro col s hcol hs
  match s with
  | .ret m k => exact hs
  | .run m inv =>
    rw [colBody_spec n col hcol]
    by_cases hv : val m col col = 0
    · rw [if_pos hv]
      have hs : Inv n A col m := hs
      have hne : ∀ r c, ¬ (r = col ∧ c = col) → Mat.set m col col 0 r c = m r c :=
        fun r c h => Mat.set_ne _ _ _ _ _ _ h
      refine ⟨hcol, ?_, by rw [Mat.set_self], ?_⟩
      · intro c hc; rw [hne _ _ (by omega)]; exact hs.diag c hc
      · intro c r hcr hr
        have hsum : ∑ j ∈ range c, Mat.set m col col 0 c j * Mat.set m col col 0 j j * Mat.set m col col 0 r j =
            ∑ j ∈ range c, m c j * m j j * m r j := by
          apply sum_congr rfl
          intro j hj
          have := mem_range.1 hj
          rw [hne _ _ (by omega), hne _ _ (by omega), hne _ _ (by omega)]
        rw [hsum]
        by_cases e : c = col
        · have e2 : r = c := by omega
          subst e2; subst e
          have h1 := val_inv hs r (le_refl _) hcol
          rw [hv] at h1
          rw [if_pos rfl, Mat.set_self, add_zero]
          exact (sub_eq_zero.1 h1.symm)
        · rw [hs.fact c r (by omega) hcr (by omega), hne _ _ (by omega), hne _ _ (by omega)]
    · rw [if_neg hv]
      exact colRes_inv hcol hs hv

/-- summary of `do_compute` -/
theorem compute_spec (n : Nat) (A : Mat K) :
    ((compute n A).2 = n ∧ (∀ c, c < n → (compute n A).1 c c ≠ 0) ∧ Fact n A (compute n A).1) ∨
    ((compute n A).2 < n ∧ (∀ c, c < (compute n A).2 → (compute n A).1 c c ≠ 0) ∧
      (compute n A).1 (compute n A).2 (compute n A).2 = 0 ∧ Fact ((compute n A).2 + 1) A (compute n A).1) := by
  have h := compute_inv n A
  unfold compute
  cases hq : forN n (colBody n) (.run A 1) with
  | run m inv =>
    rw [hq] at h
    have h : Inv n A n m := h
    exact Or.inl ⟨rfl, h.diag, fun c r h1 h2 => h.fact c r (by omega) h1 h2⟩
  | ret m k =>
    rw [hq] at h
    exact Or.inr h

/-! ### matrix form -/

/-- `L` as a mathematical matrix -/
def Lmat (k : Nat) (m : Mat K) : Matrix (Fin k) (Fin k) K :=
  asM k k (fun r c => if c < r then m r c else if r = c then 1 else 0)
/-- `D` -/
def Dmat (k : Nat) (m : Mat K) : Matrix (Fin k) (Fin k) K := Matrix.diagonal (fun i : Fin k => m i i)

theorem sum_range_le {n c : Nat} (hc : c < n) (f : Nat → K) (h0 : ∀ j, c < j → f j = 0) :
    ∑ j ∈ range n, f j = ∑ j ∈ range c, f j + f c := by
  have : range (c+1) ⊆ range n := range_subset_range.2 hc
  rw [← sum_subset this (fun j _ hj => h0 j (by simpa using hj)), sum_range_succ]

theorem ldl_entry (k : Nat) (m : Mat K) (i j : Fin k) :
    (Lmat k m * Dmat k m * (Lmat k m).transpose) i j = ∑ t ∈ range k,
      (if t < i then m i t else if (i:Nat) = t then 1 else 0) * m t t *
      (if t < j then m j t else if (j:Nat) = t then 1 else 0) := by
  rw [Matrix.mul_apply, ← Fin.sum_univ_eq_sum_range
    (fun t => (if t < i then m i t else if (i:Nat) = t then 1 else 0) * m t t *
      (if t < j then m j t else if (j:Nat) = t then 1 else 0)) k]
  apply sum_congr rfl
  intro t _
  rw [Dmat, Matrix.mul_diagonal]
  rfl

theorem ldl_symm (k : Nat) (m : Mat K) :
    (Lmat k m * Dmat k m * (Lmat k m).transpose).transpose = Lmat k m * Dmat k m * (Lmat k m).transpose := by
  rw [Matrix.transpose_mul, Matrix.transpose_mul, Matrix.transpose_transpose, Dmat,
    Matrix.diagonal_transpose, Matrix.mul_assoc]

theorem fact_matrix {k : Nat} {A m : Mat K} (h : Fact k A m) :
    asM k k (lowerSym A) = Lmat k m * Dmat k m * (Lmat k m).transpose := by
  have hlow : ∀ i j : Fin k, (j : Nat) ≤ i → (Lmat k m * Dmat k m * (Lmat k m).transpose) i j = A i j := by
    intro i j hij
    rw [ldl_entry, sum_range_le j.2, h j i hij i.2]
    · congr 1
      · apply sum_congr rfl
        intro t ht
        have := mem_range.1 ht
        rw [if_pos (by omega), if_pos (by omega)]; ring
      · rw [if_neg (by omega : ¬ (j:Nat) < j), if_pos (rfl : (j:Nat) = j)]
        by_cases e : (i : Nat) = j
        · rw [if_neg (by omega : ¬ (j:Nat) < i), if_pos e, if_pos e]; ring
        · rw [if_pos (by omega : (j:Nat) < i), if_neg e]; ring
    · intro t ht
      rw [if_neg (by omega : ¬ t < (j:Nat)), if_neg (by omega : ¬ (j:Nat) = t), mul_zero]
  ext i j
  simp only [asM_apply, lowerSym]
  split
  · next hle => exact (hlow i j hle).symm
  · next hle =>
    rw [← ldl_symm]
    exact (hlow j i (by omega)).symm

theorem Lmat_det (k : Nat) (m : Mat K) : (Lmat k m).det = 1 := by
  rw [Matrix.det_of_isLowerTriangular]
  · apply prod_eq_one
    intro i _
    simp [Lmat]
  · intro i j hij
    have : (i : Nat) < j := by simpa using hij
    simp only [Lmat, asM_apply]
    rw [if_neg (by omega), if_neg (by omega)]

theorem ldl_det {k : Nat} {A m : Mat K} (h : Fact k A m) :
    (asM k k (lowerSym A)).det = ∏ i ∈ range k, m i i := by
  rw [fact_matrix h, Matrix.det_mul, Matrix.det_mul, Matrix.det_transpose, Lmat_det, Dmat,
    Matrix.det_diagonal, one_mul, mul_one, Fin.prod_univ_eq_prod_range (fun i => m i i)]

theorem Fact_mono {k k' : Nat} (hk : k' ≤ k) {A m : Mat K} (h : Fact k A m) : Fact k' A m :=
  fun c r h1 h2 => h c r h1 (by omega)

/-- a vector that isolates the last pivot -/
theorem exists_pivot_vector {k : Nat} {A m : Mat K} (h : Fact (k+1) A m) :
    ∃ x : Fin (k+1) → K, x ≠ 0 ∧
      dotProduct x ((asM (k+1) (k+1) (lowerSym A)).mulVec x) = m k k := by
  set L := Lmat (k+1) m with hL
  have hu : IsUnit (L.transpose).det := by
    rw [Matrix.det_transpose, hL, Lmat_det]; exact isUnit_one
  let e : Fin (k+1) → K := Pi.single (Fin.last k) 1
  let x := (L.transpose)⁻¹.mulVec e
  have hx : L.transpose.mulVec x = e := by
    simp only [x]
    rw [Matrix.mulVec_mulVec, Matrix.mul_nonsing_inv _ hu, Matrix.one_mulVec]
  refine ⟨x, ?_, ?_⟩
  · intro h0
    rw [h0, Matrix.mulVec_zero] at hx
    have := congrFun hx (Fin.last k)
    simp [e] at this
  · rw [fact_matrix h, ← Matrix.mulVec_mulVec, hx, ← Matrix.mulVec_mulVec, ← hL,
      Matrix.dotProduct_mulVec, ← Matrix.mulVec_transpose, hx, Dmat]
    simp only [e, Matrix.mulVec_diagonal, dotProduct]
    rw [sum_eq_single (Fin.last k)]
    · simp
    · intro b _ hb; simp [hb]
    · simp

/-! ### back substitution -/

theorem fwd_spec (n : Nat) (m : Mat K) (v u : Vec K) (i : Nat) (hi : i < n) :
    fwd n m v u i = v i - ∑ j ∈ range i, m i j * fwd n m v u j := by
  have := forN_inv (fun k (y : Vec K) => ∀ i, i < k → y i = v i - ∑ j ∈ range i, m i j * y j) n
    (fun i y => Vec.set y i (forN i (fun j val => val - m i j * y j) (v i))) u
    (by intro i hi; omega)
    (by
      intro k y hk hy i hi
      by_cases e : i = k
      · subst e
        rw [Vec.set_self, forN_sub]
        congr 1
        apply sum_congr rfl
        intro j hj
        rw [Vec.set_ne _ _ _ _ (by have := mem_range.1 hj; omega)]
      · rw [Vec.set_ne _ _ _ _ e, hy i (by omega)]
        congr 1
        apply sum_congr rfl
        intro j hj
        rw [Vec.set_ne _ _ _ _ (by have := mem_range.1 hj; omega)])
  exact this i hi

theorem bwd_spec (n : Nat) (m : Mat K) (y w : Vec K) (i : Nat) (hi : i < n) :
    bwd n m y w i = y i - ∑ j ∈ Ico (i+1) n, m j i * bwd n m y w j := by
  have := forDown_inv (fun k (x : Vec K) => ∀ i, k ≤ i → i < n → x i = y i - ∑ j ∈ Ico (i+1) n, m j i * x j) n
    (fun i x => Vec.set x i (forRange (i+1) n (fun j val => val - m j i * x j) (y i))) w
    (by intro i h1 h2; omega)
    (by
      intro k x hk hx i h1 h2
      by_cases e : i = k
      · subst e
        rw [Vec.set_self, forRange_sub]
        congr 1
        apply sum_congr rfl
        intro j hj
        rw [Vec.set_ne _ _ _ _ (by have := mem_Ico.1 hj; omega)]
      · rw [Vec.set_ne _ _ _ _ e, hx i (by omega) h2]
        congr 1
        apply sum_congr rfl
        intro j hj
        rw [Vec.set_ne _ _ _ _ (by have := mem_Ico.1 hj; omega)])
  exact this i (by omega) hi

theorem mulVec_range (n : Nat) (f : Nat → Nat → K) (x : Vec K) (i : Fin n) :
    (asM n n f).mulVec (asV n x) i = ∑ j ∈ range n, f i j * x j := by
  rw [← Fin.sum_univ_eq_sum_range (fun j => f i j * x j) n]
  rfl

theorem Lmat_mulVec (n : Nat) (m : Mat K) (y : Vec K) (i : Fin n) :
    (Lmat n m).mulVec (asV n y) i = ∑ j ∈ range i, m i j * y j + y i := by
  rw [Lmat, mulVec_range, sum_range_le i.2]
  · rw [if_neg (by omega), if_pos rfl, one_mul]
    congr 1
    apply sum_congr rfl
    intro j hj
    rw [if_pos (mem_range.1 hj)]
  · intro j hj; rw [if_neg (by omega), if_neg (by omega), zero_mul]

theorem LmatT_mulVec (n : Nat) (m : Mat K) (x : Vec K) (i : Fin n) :
    (Lmat n m).transpose.mulVec (asV n x) i = x i + ∑ j ∈ Ico ((i:Nat)+1) n, m j i * x j := by
  have : (Lmat n m).transpose = asM n n (fun r c => if r < c then m c r else if c = r then 1 else 0) := rfl
  rw [this, mulVec_range, range_eq_Ico, ← sum_Ico_consecutive _ (Nat.zero_le i) (by omega : (i:Nat) ≤ n),
    sum_eq_sum_Ico_succ_bot i.2]
  rw [sum_eq_zero (s := Ico 0 (i:Nat))]
  · rw [zero_add, if_neg (by omega), if_pos rfl, one_mul]
    congr 1
    apply sum_congr rfl
    intro j hj
    rw [if_pos (by have := mem_Ico.1 hj; omega)]
  · intro j hj
    have := mem_Ico.1 hj
    rw [if_neg (by omega), if_neg (by omega), zero_mul]

/-- `backsub` solves `L D Lᵀ x = v` -/
theorem backsub_spec (n : Nat) (m : Mat K) (v u w : Vec K) (hd : ∀ i, i < n → m i i ≠ 0) :
    ∃ x, backsub n m v u w = some x ∧
      (Lmat n m * Dmat n m * (Lmat n m).transpose).mulVec (asV n x) = asV n v := by
  set y := fwd n m v u with hy
  refine ⟨_, by rw [backsub, divDiag_some n m _ hd, Option.bind_some], ?_⟩
  set z : Vec K := fun i => if i < n then y i / m i i else y i with hz
  have h1 : (Lmat n m).transpose.mulVec (asV n (bwd n m z w)) = asV n z := by
    funext i
    rw [LmatT_mulVec, bwd_spec n m z w i i.2]; simp
  have h2 : (Dmat n m).mulVec (asV n z) = asV n y := by
    funext i
    rw [Dmat, Matrix.mulVec_diagonal]
    simp only [asV_apply, hz]
    rw [if_pos i.2]
    have := hd i i.2
    field_simp
  have h3 : (Lmat n m).mulVec (asV n y) = asV n v := by
    funext i
    rw [Lmat_mulVec, hy, fwd_spec n m v u i i.2]; simp
  rw [← Matrix.mulVec_mulVec, ← Matrix.mulVec_mulVec, h1, h2, h3]

/-! ### matrix right-hand sides: each column is the vector algorithm -/

theorem divDiagM_col (n nc : Nat) (m y : Mat K) (hd : ∀ i, i < n → m i i ≠ 0) :
    divDiagM n nc m y = some (fun i k => if i < n ∧ k < nc then y i k / m i i else y i k) := by
  obtain ⟨s, h1, h2⟩ := forNM_total (fun t (s : Mat K) => s = fun i k => if i < t ∧ k < nc then y i k / m i i else y i k) n
    (fun i y => if m i i = 0 then none else some (setRow y i nc (fun k => y i k * (1 / m i i)))) y
    (by funext i k; simp)
    (by
      intro k t hk ht
      refine ⟨_, by rw [if_neg (hd k hk)], ?_⟩
      subst ht
      funext i c
      unfold setRow
      beta_reduce
      by_cases e : i = k ∧ c < nc
      · obtain ⟨rfl, hc⟩ := e
        rw [if_pos ⟨rfl, hc⟩, if_pos (by omega : i < i + 1 ∧ c < nc), if_neg (by omega)]; ring
      · rw [if_neg e]
        by_cases e2 : i < k ∧ c < nc
        · rw [if_pos e2, if_pos (by omega)]
        · rw [if_neg e2, if_neg (by omega)])
  rw [divDiagM, h1, h2]

/-- the matrix `backsub` is the vector `backsub` on each column -/
theorem backsubM_col (n nc : Nat) (m B u w : Mat K) (hd : ∀ i, i < n → m i i ≠ 0) :
    ∃ X, backsubM n nc m B u w = some X ∧ ∀ k, k < nc → ∃ x,
      backsub n m (fun i => B i k) (fun i => u i k) (fun i => w i k) = some x ∧
      ∀ i, i < n → X i k = x i := by
  refine ⟨_, by rw [backsubM, divDiagM_col n nc m _ hd, Option.bind_some], ?_⟩
  intro k hk
  refine ⟨_, by rw [backsub, divDiag_some n m _ hd, Option.bind_some], ?_⟩
  intro i _
  have h := congrFun (bwdM_col n nc m
    (fun i k => if i < n ∧ k < nc then fwdM n nc m B u i k / m i i else fwdM n nc m B u i k) w k hk) i
  refine h.trans ?_
  congr 2
  funext j
  have h2 := congrFun (fwdM_col n nc m B u k hk) j
  beta_reduce at h2
  by_cases hj : j < n
  · rw [if_pos ⟨hj, hk⟩, if_pos hj, h2]
  · rw [if_neg (by omega), if_neg hj, h2]

/-! ### accessors -/

theorem asM_getUnscaledL (n : Nat) (m u : Mat K) : asM n n (getUnscaledL n m u) = Lmat n m := by
  rw [Lmat, asM_eq_iff]
  intro i j hi hj
  exact getUnscaledL_apply n m u i j hi hj

theorem asM_getD (n : Nat) (m u : Mat K) : asM n n (getD n m u) = Dmat n m := by
  ext i j
  rw [asM_apply, getD_apply n m u i j i.2 j.2, Dmat, Matrix.diagonal_apply]
  by_cases e : i = j
  · subst e; rw [if_pos rfl, if_pos rfl]
  · rw [if_neg e, if_neg (fun h => e (Fin.ext h))]

theorem asM_getL (sqrt : K → K) (n : Nat) (m u : Mat K) :
    asM n n (getL sqrt n m u) = Lmat n m * Matrix.diagonal (fun i : Fin n => sqrt (m i i)) := by
  ext i j
  rw [asM_apply, getL_apply sqrt n m u i j i.2 j.2, Matrix.mul_diagonal, Lmat, asM_apply]
  by_cases e : (j : Nat) < i
  · rw [if_pos e, if_pos e]
  · rw [if_neg e, if_neg e]
    by_cases e2 : (i : Nat) = j
    · rw [if_pos e2, if_pos e2, one_mul]
    · rw [if_neg e2, if_neg e2, zero_mul]

theorem determinant_eq (n : Nat) (hn : 0 < n) (m : Mat K) : determinant n m = ∏ i ∈ range n, m i i := by
  unfold determinant
  exact forRange_inv (fun k (s : K) => s = ∏ i ∈ range k, m i i) 1 n (by omega) _ _ (by simp)
    (by intro i t h1 h2 ht; rw [ht, prod_range_succ])

/-! ### the upper half is never read -/

/-- storages that agree on everything the algorithm may read at stage `col` -/
def Agree (col : Nat) (m m' : Mat K) : Prop := ∀ r c, (c ≤ r ∨ r < col) → m r c = m' r c

theorem val_agree {col : Nat} {m m' : Mat K} (h : Agree col m m') (r : Nat) (hr : col ≤ r) :
    val m r col = val m' r col :=
  val_congr m m' r col (h r col (Or.inl hr)) (fun k hk => h k col (Or.inr hk)) (fun k hk => h r k (Or.inl (by omega)))

/-- states of the two runs agree -/
def SAgree (n col : Nat) : St K → St K → Prop
  | .run m _, .run m' _ => ∀ r c, r < n → c < n → (c ≤ r ∨ r < col) → m r c = m' r c
  | .ret m k, .ret m' k' => k = k' ∧ ∀ r c, r < n → c < n → c ≤ r → m r c = m' r c
  | _, _ => False

theorem val_agree' {n col : Nat} {m m' : Mat K} (h : ∀ r c, r < n → c < n → (c ≤ r ∨ r < col) → m r c = m' r c)
    (r : Nat) (hr : col ≤ r) (hrn : r < n) (hcn : col < n) :
    val m r col = val m' r col :=
  val_congr m m' r col (h r col hrn hcn (Or.inl hr)) (fun k hk => h k col (by omega) hcn (Or.inr hk))
    (fun k hk => h r k hrn (by omega) (Or.inl (by omega)))

theorem compute_agree (n : Nat) (A A' : Mat K) (h : ∀ r c, r < n → c ≤ r → A r c = A' r c) :
    SAgree n n (forN n (colBody n) (.run A 1)) (forN n (colBody n) (.run A' 1)) := by
  have : ∀ k, k ≤ n → SAgree n k (forN k (colBody n) (.run A 1)) (forN k (colBody n) (.run A' 1)) := by
    intro k
    induction k with
    | zero => intro _ r c hr hc hrc; exact h r c hr (by omega)
    | succ k ih =>
      intro hk
      have hs := ih (by omega)
      rw [forN_succ, forN_succ]
      generalize forN k (colBody n) (.run A 1) = s at hs ⊢
      generalize forN k (colBody n) (.run A' 1) = s' at hs ⊢
      match s, s', hs with
      | .ret m j, .ret m' j', hs => exact hs
      | .run m i, .run m' i', hs =>
        have hs : ∀ r c, r < n → c < n → (c ≤ r ∨ r < k) → m r c = m' r c := hs
        have hv := val_agree' hs
        rw [colBody_spec n k (by omega), colBody_spec n k (by omega), hv k (le_refl _) (by omega) (by omega)]
        by_cases h0 : val m' k k = 0
        · rw [if_pos h0, if_pos h0]
          refine ⟨rfl, ?_⟩
          intro r c hr hc hrc
          unfold Mat.set
          split
          · rfl
          · exact hs r c hr hc (Or.inl hrc)
        · rw [if_neg h0, if_neg h0]
          intro r c hr hc hrc
          unfold colRes
          by_cases g1 : r = k ∧ c = k
          · rw [if_pos g1, if_pos g1, hv k (le_refl _) (by omega) (by omega)]
          · rw [if_neg g1, if_neg g1]
            by_cases g2 : r = k ∧ k < c ∧ c < n
            · rw [if_pos g2, if_pos g2, hv c (by omega) hc (by omega)]
            · rw [if_neg g2, if_neg g2]
              by_cases g3 : c = k ∧ k < r ∧ r < n
              · rw [if_pos g3, if_pos g3, hv r (by omega) hr (by omega), hv k (le_refl _) (by omega) (by omega)]
              · rw [if_neg g3, if_neg g3]
                exact hs r c hr hc (by omega)
  exact this n (le_refl _)

end TooN.Chol
