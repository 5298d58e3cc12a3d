import Verif.Proof.Expr
/-! What each operator function does on well-formed objects (helper lemmas for C65). -/
set_option linter.unusedSectionVars false
set_option linter.unusedSimpArgs false
namespace TooN.Expr
open Matrix
open TooN.Checks (sizer)

variable {K : Type} [Field K]

theorem RepV.row {A : MB K} {r c : Nat} {X : Matrix (Fin r) (Fin c) K} (h : RepM A X) (i : Nat)
    (hi : i < r) : ∃ b, A.row i = .ok b ∧ b.S = A.C ∧ RepV b (X ⟨i, hi⟩) := by
  obtain ⟨h1, h2, h3, h4, h5⟩ := h
  unfold MB.row
  rw [if_pos (by omega)]
  exact ⟨_, rfl, rfl, h2.agrees, h4, fun j => h5 ⟨i, hi⟩ j⟩

theorem RepM.T {A : MB K} {r c : Nat} {X : Matrix (Fin r) (Fin c) K} (h : RepM A X) :
    RepM A.T Xᵀ := by
  obtain ⟨h1, h2, h3, h4, h5⟩ := h
  exact ⟨h2, h1, h4, h3, fun i j => h5 j i⟩

theorem vpairwise_ok {a b : VB K} {n : Nat} {x y : Fin n → K} (o : BinV) (ha : RepV a x)
    (hb : RepV b y) :
    ∃ r, vpairwise o a b = .ok r ∧ r.S = sizer a.S b.S ∧ RepV r (binV o x y) := by
  unfold vpairwise
  rw [ha.2.1, hb.2.1, test_eq ha.1 hb.1, if_pos rfl, Outcome.bind_ok,
    allocV_eq (sizer_agrees ha.1 hb.1).agrees, Outcome.bind_ok,
    storeV_ok n _ (fun i => opV o (extV 0 x i) (extV 0 y i)) _ (fun i hi => by
      rw [ha.get 0 i hi, hb.get 0 i hi]; rfl) le_rfl]
  refine ⟨_, rfl, rfl, repV_mk (sizer_agrees ha.1 hb.1).agrees _ _ fun i => ?_⟩
  rw [if_pos i.2, extV_fin, extV_fin]
  cases o <;> rfl

theorem vpairwise_ne {a b : VB K} {n m : Nat} {x : Fin n → K} {y : Fin m → K} (o : BinV)
    (ha : RepV a x) (hb : RepV b y) (h : n ≠ m) : vpairwise o a b = .abort := by
  unfold vpairwise
  rw [ha.2.1, hb.2.1, test_eq ha.1 hb.1, if_neg h]; rfl

theorem applyScalarV_ok {a : VB K} {n : Nat} {x : Fin n → K} (o : Sca) (s : K) (ha : RepV a x) :
    ∃ r, applyScalarV o a s = .ok r ∧ r.S = a.S ∧ RepV r (fun i => sca o (x i) s) := by
  unfold applyScalarV
  rw [ha.2.1, allocV_eq ha.1, Outcome.bind_ok,
    storeV_ok n _ (fun i => sca o (extV 0 x i) s) _ (fun i hi => by
      rw [ha.get 0 i hi]; cases o <;> rfl) le_rfl]
  exact ⟨_, rfl, rfl, repV_mk ha.1 _ _ fun i => by rw [if_pos i.2, extV_fin]⟩

theorem vnegate_ok {a : VB K} {n : Nat} {x : Fin n → K} (ha : RepV a x) :
    ∃ r, vnegate a = .ok r ∧ r.S = a.S ∧ RepV r (-x) := by
  obtain ⟨t, h1, h2, h3⟩ := applyScalarV_ok .mul (-1) ha
  obtain ⟨b, h4, h5, h6⟩ := assignV_ok (v := ⟨a.S, n, fun _ => none⟩) 0 ha.1 rfl h3
  refine ⟨b, ?_, h5, ?_⟩
  · unfold vnegate
    rw [ha.2.1, allocV_eq ha.1, Outcome.bind_ok, h1, Outcome.bind_ok, h4]
  · have : (fun i => sca Sca.mul (x i) (-1)) = -x := by funext i; simp [sca]
    rwa [this] at h6

theorem dotB_ok {a b : VB K} {n : Nat} {x y : Fin n → K} (ha : RepV a x) (hb : RepV b y) :
    dotB a b = .ok (x ⬝ᵥ y) := by
  unfold dotB
  rw [ha.2.1, hb.2.1, test_eq ha.1 hb.1, if_pos rfl, Outcome.bind_ok]
  obtain ⟨t, h1, h2⟩ := forO_inv
    (fun k (t : K) => t = ∑ i ∈ Finset.range k, extV 0 x i * extV 0 y i) n
    (fun i result => (a.get i).bind fun x => (b.get i).bind fun y => .ok (result + x * y)) 0
    (by simp) (by
      rintro i t hi rfl
      refine ⟨_, ?_, rfl⟩
      rw [ha.get 0 i hi, hb.get 0 i hi, Finset.sum_range_succ]; rfl)
  rw [h1, h2, dotProduct, ← Fin.sum_univ_eq_sum_range]
  simp [extV_fin]

theorem dotB_ne {a b : VB K} {n m : Nat} {x : Fin n → K} {y : Fin m → K}
    (ha : RepV a x) (hb : RepV b y) (h : n ≠ m) : dotB a b = .abort := by
  unfold dotB
  rw [ha.2.1, hb.2.1, test_eq ha.1 hb.1, if_neg h]; rfl

theorem crossB_ok {a b : VB K} {x y : Fin 3 → K} (ha : RepV a x) (hb : RepV b y) :
    ∃ r, crossB a b = .ok r ∧ r.S = 3 ∧ RepV r (crossProduct x y) := by
  have h3 : Agrees 3 3 := Or.inr (Or.inr ⟨by norm_num, by norm_num⟩)
  unfold crossB
  rw [allocV_eq h3, Outcome.bind_ok, ha.get 0 0 (by norm_num), Outcome.bind_ok,
    ha.get 0 1 (by norm_num), Outcome.bind_ok, ha.get 0 2 (by norm_num), Outcome.bind_ok,
    hb.get 0 0 (by norm_num), Outcome.bind_ok,
    hb.get 0 1 (by norm_num), Outcome.bind_ok, hb.get 0 2 (by norm_num), Outcome.bind_ok]
  simp only [VB.set, show (0:ℕ) < 3 by norm_num, show (1:ℕ) < 3 by norm_num,
    show (2:ℕ) < 3 by norm_num, if_true, Outcome.bind_ok]
  refine ⟨_, rfl, rfl, repV_mk h3 _ _ fun i => ?_⟩
  rw [cross_apply]
  fin_cases i <;> simp [extV]

theorem onesVB_ok {S : Int} {n k : Nat} (h : Agrees S k)
    (ha : (allocV S n : Outcome (VB K)) = .ok ⟨S, k, fun _ => none⟩) (s : K) :
    ∃ r, onesVB S n s = .ok r ∧ r.S = S ∧ RepV r (fun _ : Fin k => s) := by
  unfold onesVB
  rw [ha, Outcome.bind_ok, storeV_ok k _ (fun _ => s) _ (fun i _ => rfl) le_rfl]
  exact ⟨_, rfl, rfl, repV_mk h _ _ fun i => by rw [if_pos i.2]⟩

theorem scalarsV_ok {a : VB K} {n : Nat} {x : Fin n → K} (o : Mode) (s : K) (ha : RepV a x) :
    ∃ r, scalarsV o a s = .ok r ∧ r.S = a.S ∧ RepV r (mode o x (fun _ => s)) := by
  unfold scalarsV
  rw [ha.2.1, allocV_eq ha.1, Outcome.bind_ok,
    storeV_ok n _ (fun i => mode o (extV 0 x i) s) _ (fun i hi => by
      rw [ha.get 0 i hi]
      cases o
      · show Outcome.ok (s + _) = Outcome.ok (_ + s); rw [add_comm]
      · show Outcome.ok (-s + _) = Outcome.ok (_ - s); rw [neg_add_eq_sub]
      · rfl) le_rfl]
  refine ⟨_, rfl, rfl, repV_mk ha.1 _ _ fun i => ?_⟩
  rw [if_pos i.2, extV_fin]
  cases o <;> rfl

theorem matVec_ok {A : MB K} {a : VB K} {r c : Nat} {X : Matrix (Fin r) (Fin c) K} {y : Fin c → K}
    (hA : RepM A X) (ha : RepV a y) :
    ∃ b, matVec A a = .ok b ∧ b.S = A.R ∧ RepV b (X *ᵥ y) := by
  unfold matVec
  rw [hA.2.2.1, hA.2.2.2.1, ha.2.1, test_eq hA.2.1.agrees ha.1, if_pos rfl, Outcome.bind_ok,
    allocV_eq hA.1.agrees, Outcome.bind_ok, storeV_ok r _ (extV 0 (X *ᵥ y)) _ (fun i hi => by
      obtain ⟨b, h1, _, h3⟩ := RepV.row hA i hi
      rw [h1, Outcome.bind_ok, dotB_ok h3 ha]
      simp [extV, hi, mulVec]) le_rfl]
  exact ⟨_, rfl, rfl, repV_mk hA.1.agrees _ _ fun i => by rw [if_pos i.2, extV_fin]⟩

theorem matVec_ne {A : MB K} {a : VB K} {r c n : Nat} {X : Matrix (Fin r) (Fin c) K} {y : Fin n → K}
    (hA : RepM A X) (ha : RepV a y) (h : c ≠ n) : matVec A a = .abort := by
  unfold matVec
  rw [hA.2.2.2.1, ha.2.1, test_eq hA.2.1.agrees ha.1, if_neg h]; rfl

theorem vecMat_ok {A : MB K} {a : VB K} {r c : Nat} {X : Matrix (Fin r) (Fin c) K} {y : Fin r → K}
    (hA : RepM A X) (ha : RepV a y) :
    ∃ b, vecMat a A = .ok b ∧ b.S = A.C ∧ RepV b (y ᵥ* X) := by
  unfold vecMat
  rw [hA.2.2.1, hA.2.2.2.1, ha.2.1, test_eq hA.1.agrees ha.1, if_pos rfl, Outcome.bind_ok,
    allocV_eq hA.2.1.agrees, Outcome.bind_ok, storeV_ok c _ (extV 0 (y ᵥ* X)) _ (fun i hi => by
      obtain ⟨b, h1, _, h3⟩ := RepV.row hA.T i hi
      rw [h1, Outcome.bind_ok, dotB_ok ha h3]
      simp [extV, hi, vecMul]; rfl) le_rfl]
  exact ⟨_, rfl, rfl, repV_mk hA.2.1.agrees _ _ fun i => by rw [if_pos i.2, extV_fin]⟩

theorem vecMat_ne {A : MB K} {a : VB K} {r c n : Nat} {X : Matrix (Fin r) (Fin c) K} {y : Fin n → K}
    (hA : RepM A X) (ha : RepV a y) (h : r ≠ n) : vecMat a A = .abort := by
  unfold vecMat
  rw [hA.2.2.1, ha.2.1, test_eq hA.1.agrees ha.1, if_neg h]; rfl

theorem convVB_ok {a : VB K} {n : Nat} {x : Fin n → K} {S : Int} (ha : RepV a x) (hS : Agrees S n) :
    ∃ r, convVB S a = .ok r ∧ r.S = S ∧ RepV r x := by
  obtain ⟨b, h4, h5, h6⟩ := assignV_ok (v := ⟨S, n, fun _ => none⟩) 0 hS rfl ha
  refine ⟨b, ?_, h5, h6⟩
  unfold convVB
  rw [ha.2.1, allocV_eq hS, Outcome.bind_ok, h4]

theorem convMB_ok {a : MB K} {r c : Nat} {X : Matrix (Fin r) (Fin c) K} {R C : Int} (ha : RepM a X)
    (hR : AgreesM R r) (hC : AgreesM C c) :
    ∃ b, convMB R C a = .ok b ∧ b.R = R ∧ b.C = C ∧ RepM b X := by
  obtain ⟨b, h4, h5, h5', h6⟩ := assignM_ok (v := ⟨R, C, r, c, fun _ _ => none⟩) 0 hR hC rfl rfl ha
  refine ⟨b, ?_, h5, h5', h6⟩
  unfold convMB
  rw [ha.2.2.1, ha.2.2.2.1, allocM_eq hR hC, Outcome.bind_ok, h4]

theorem diagVec_ok {a b : VB K} {n : Nat} {x y : Fin n → K} (ha : RepV a x) (hb : RepV b y) :
    ∃ r, diagVec a b = .ok r ∧ r.S = sizer a.S b.S ∧ RepV r (diagonal x *ᵥ y) := by
  obtain ⟨d, h1, h2, h3⟩ := convVB_ok ha ha.1
  obtain ⟨r, h4, h5, h6⟩ := vpairwise_ok .diagmult h3 hb
  refine ⟨r, ?_, by rw [h5, h2], ?_⟩
  · unfold diagVec
    rw [h1, Outcome.bind_ok, h4]
  · have : diagonal x *ᵥ y = binV .diagmult x y := by
      funext i; rw [mulVec_diagonal]; rfl
    rw [this]; exact h6

theorem diagVec_ne {a b : VB K} {n m : Nat} {x : Fin n → K} {y : Fin m → K}
    (ha : RepV a x) (hb : RepV b y) (h : n ≠ m) : diagVec a b = .abort := by
  obtain ⟨d, h1, h2, h3⟩ := convVB_ok ha ha.1
  unfold diagVec
  rw [h1, Outcome.bind_ok, vpairwise_ne _ h3 hb h]

theorem sliceB_ok {a : VB K} {n s l : Nat} {x : Fin n → K} (ha : RepV a x) (h : s + l ≤ n) :
    ∃ r, sliceB a s l = .ok r ∧ r.S = Checks.Dynamic ∧
      RepV r (fun i : Fin l => x ⟨s + i, by omega⟩) := by
  unfold sliceB
  have hA : Checks.SizeAgrees a.S a.n := by
    have h1 := ha.1
    have h2 := ha.2.1
    unfold Agrees at h1
    unfold Checks.SizeAgrees
    rcases h1 with h1 | h1 | h1
    · exact Or.inl h1
    · exact Or.inr (Or.inl h1.1)
    · exact Or.inr (Or.inr (by omega))
  rw [Checks.c04_dynamic_slice _ _ _ _ ha.1.legal hA, if_pos (by have := ha.2.1; omega)]
  refine ⟨_, rfl, rfl, Or.inl rfl, by simp, fun i => ?_⟩
  simpa using ha.2.2 ⟨s + i, by omega⟩

theorem sliceB_ne {a : VB K} {n : Nat} {start length : Int} {x : Fin n → K} (ha : RepV a x)
    (h : ¬ (0 ≤ start ∧ 0 ≤ length ∧ start + length ≤ n)) : sliceB a start length = .abort := by
  unfold sliceB
  have hA : Checks.SizeAgrees a.S a.n := by
    have h1 := ha.1
    have h2 := ha.2.1
    unfold Agrees at h1
    unfold Checks.SizeAgrees
    rcases h1 with h1 | h1 | h1
    · exact Or.inl h1
    · exact Or.inr (Or.inl h1.1)
    · exact Or.inr (Or.inr (by omega))
  rw [Checks.c04_dynamic_slice _ _ _ _ ha.1.legal hA, if_neg (by have := ha.2.1; omega)]

theorem sliceDyn_eq {S : Int} {n : Nat} (h : Agrees S n) (start length : Int) :
    (0 ≤ start ∧ 0 ≤ length ∧ start + length ≤ n → Checks.sliceDyn S n start length = .ok) ∧
    (¬ (0 ≤ start ∧ 0 ≤ length ∧ start + length ≤ n) → Checks.sliceDyn S n start length = .abort) := by
  have hA : Checks.SizeAgrees S n := by
    unfold Agrees at h
    unfold Checks.SizeAgrees; omega
  have := Checks.c04_dynamic_slice S n start length h.legal hA
  rw [this]
  exact ⟨fun h => by rw [if_pos h], fun h => by rw [if_neg h]⟩

theorem sliceMB_ok {A : MB K} {r c r0 c0 r1 c1 : Nat} {X : Matrix (Fin r) (Fin c) K} (hA : RepM A X)
    (h : r0 + r1 ≤ r) (h' : c0 + c1 ≤ c) :
    ∃ b, sliceMB A r0 c0 r1 c1 = .ok b ∧ b.R = Checks.Dynamic ∧ b.C = Checks.Dynamic ∧
      RepM b (fun (i : Fin r1) (j : Fin c1) => X ⟨r0 + i, by omega⟩ ⟨c0 + j, by omega⟩) := by
  unfold sliceMB
  rw [hA.2.2.1, hA.2.2.2.1, (sliceDyn_eq hA.1.agrees _ _).1 (by omega),
    (sliceDyn_eq hA.2.1.agrees _ _).1 (by omega)]
  refine ⟨_, rfl, rfl, rfl, Or.inl rfl, Or.inl rfl, by simp, by simp, fun i j => ?_⟩
  simpa using hA.2.2.2.2 ⟨r0 + i, by omega⟩ ⟨c0 + j, by omega⟩

theorem sliceMB_ne {A : MB K} {r c : Nat} {rs cs rl cl : Int} {X : Matrix (Fin r) (Fin c) K}
    (hA : RepM A X)
    (h : ¬ ((0 ≤ rs ∧ 0 ≤ rl ∧ rs + rl ≤ r) ∧ 0 ≤ cs ∧ 0 ≤ cl ∧ cs + cl ≤ c)) :
    sliceMB A rs cs rl cl = .abort := by
  unfold sliceMB
  rw [hA.2.2.1, hA.2.2.2.1]
  by_cases h1 : 0 ≤ rs ∧ 0 ≤ rl ∧ rs + rl ≤ r
  · rw [(sliceDyn_eq hA.1.agrees _ _).1 h1, (sliceDyn_eq hA.2.1.agrees _ _).2 (fun h2 => h ⟨h1, h2⟩)]
  · rw [(sliceDyn_eq hA.1.agrees _ _).2 h1]

theorem idxB_ok {a : VB K} {n k : Nat} {x : Fin n → K} (ha : RepV a x) (h : k < n) :
    idxB a k = .ok (x ⟨k, h⟩) := by
  unfold idxB
  rw [if_pos (by omega), Int.toNat_natCast, ha.get 0 k h]
  simp [extV, h]

theorem idxB_ub {a : VB K} {n : Nat} {i : Int} {x : Fin n → K} (ha : RepV a x)
    (h : ¬ (0 ≤ i ∧ i < n)) : idxB a i = .ub := by
  unfold idxB VB.get
  rw [ha.2.1]
  by_cases h0 : 0 ≤ i
  · rw [if_pos h0, if_neg (by omega)]
  · rw [if_neg h0]

theorem elB_ok {A : MB K} {r c k l : Nat} {X : Matrix (Fin r) (Fin c) K} (hA : RepM A X) (h : k < r)
    (h' : l < c) : elB A k l = .ok (X ⟨k, h⟩ ⟨l, h'⟩) := by
  unfold elB
  rw [if_pos (by omega), Int.toNat_natCast, Int.toNat_natCast, hA.get 0 k l h h']
  simp [extM, h, h']

theorem elB_ub {A : MB K} {r c : Nat} {i j : Int} {X : Matrix (Fin r) (Fin c) K} (hA : RepM A X)
    (h : ¬ ((0 ≤ i ∧ i < r) ∧ 0 ≤ j ∧ j < c)) : elB A i j = .ub := by
  unfold elB MB.get
  rw [hA.2.2.1, hA.2.2.2.1]
  by_cases h0 : 0 ≤ i ∧ 0 ≤ j
  · rw [if_pos h0, if_neg (by omega)]
  · rw [if_neg h0]

theorem rowB_ok {A : MB K} {r c k : Nat} {X : Matrix (Fin r) (Fin c) K} (hA : RepM A X) (h : k < r) :
    ∃ b, rowB A k = .ok b ∧ b.S = A.C ∧ RepV b (X ⟨k, h⟩) := by
  unfold rowB
  rw [if_pos (by omega), Int.toNat_natCast]
  exact RepV.row hA k h

theorem rowB_ub {A : MB K} {r c : Nat} {i : Int} {X : Matrix (Fin r) (Fin c) K} (hA : RepM A X)
    (h : ¬ (0 ≤ i ∧ i < r)) : rowB A i = .ub := by
  unfold rowB MB.row
  rw [hA.2.2.1]
  by_cases h0 : 0 ≤ i
  · rw [if_pos h0, if_neg (by omega)]
  · rw [if_neg h0]

theorem diagSB_ok {A : MB K} {r c : Nat} {X : Matrix (Fin r) (Fin c) K} (hA : RepM A X) :
    RepV (diagSB A) (fun i : Fin (min r c) => X ⟨i, by omega⟩ ⟨i, by omega⟩) := by
  obtain ⟨h1, h2, h3, h4, h5⟩ := hA
  refine ⟨?_, ?_, fun i => h5 ⟨i, by omega⟩ ⟨i, by omega⟩⟩
  · show Agrees (Typed.diagSize A.R A.C) (min r c)
    unfold AgreesM at h1 h2
    unfold Agrees Typed.diagSize
    unfold Checks.Dynamic at *
    split
    · exact Or.inl rfl
    · split <;> omega
  · show min A.c A.r = min r c
    rw [h3, h4, Nat.min_comm]

theorem mpairwise_ok {A B : MB K} {r c : Nat} {X Y : Matrix (Fin r) (Fin c) K} (o : BinM)
    (hA : RepM A X) (hB : RepM B Y) :
    ∃ b, mpairwise o A B = .ok b ∧ b.R = sizer A.R B.R ∧ b.C = sizer A.C B.C ∧
      RepM b (binM o X Y) := by
  have h1 := sizer_agrees hA.1.agrees hB.1.agrees
  have h2 := sizer_agrees hA.2.1.agrees hB.2.1.agrees
  unfold mpairwise
  rw [hA.2.2.1, hA.2.2.2.1, hB.2.2.1, hB.2.2.2.1, test_eq hA.1.agrees hB.1.agrees, if_pos rfl,
    Outcome.bind_ok, test_eq hA.2.1.agrees hB.2.1.agrees, if_pos rfl, Outcome.bind_ok,
    allocM_eq h1 h2, Outcome.bind_ok,
    storeM_ok r c _ (fun i j => opM o (extM 0 X i j) (extM 0 Y i j)) _ (fun i j hi hj => by
      rw [hA.get 0 i j hi hj, hB.get 0 i j hi hj]; rfl) le_rfl le_rfl]
  refine ⟨_, rfl, rfl, rfl, repM_mk h1 h2 _ _ fun i j => ?_⟩
  rw [if_pos ⟨i.2, j.2⟩, extM_fin, extM_fin]
  cases o <;> rfl

theorem mpairwise_ne {A B : MB K} {r c r' c' : Nat} {X : Matrix (Fin r) (Fin c) K}
    {Y : Matrix (Fin r') (Fin c') K} (o : BinM) (hA : RepM A X) (hB : RepM B Y)
    (h : r ≠ r' ∨ c ≠ c') : mpairwise o A B = .abort := by
  unfold mpairwise
  rw [hA.2.2.1, hA.2.2.2.1, hB.2.2.1, hB.2.2.2.1, test_eq hA.1.agrees hB.1.agrees,
    test_eq hA.2.1.agrees hB.2.1.agrees]
  by_cases e : r = r'
  · rw [if_pos e, Outcome.bind_ok, if_neg (by tauto)]; rfl
  · rw [if_neg e]; rfl

theorem applyScalarM_ok {A : MB K} {r c : Nat} {X : Matrix (Fin r) (Fin c) K} (o : Sca) (s : K)
    (hA : RepM A X) : ∃ b, applyScalarM o A s = .ok b ∧ b.R = A.R ∧ b.C = A.C ∧
      RepM b (fun i j => sca o (X i j) s) := by
  unfold applyScalarM
  rw [hA.2.2.1, hA.2.2.2.1, allocM_eq hA.1 hA.2.1, Outcome.bind_ok,
    storeM_ok r c _ (fun i j => sca o (extM 0 X i j) s) _ (fun i j hi hj => by
      rw [hA.get 0 i j hi hj]; cases o <;> rfl) le_rfl le_rfl]
  exact ⟨_, rfl, rfl, rfl, repM_mk hA.1 hA.2.1 _ _ fun i j => by
    rw [if_pos ⟨i.2, j.2⟩, extM_fin]⟩

theorem mnegate_ok {A : MB K} {r c : Nat} {X : Matrix (Fin r) (Fin c) K} (hA : RepM A X) :
    ∃ b, mnegate A = .ok b ∧ b.R = A.R ∧ b.C = A.C ∧ RepM b (-X) := by
  obtain ⟨t, h1, h2, h2', h3⟩ := applyScalarM_ok .mul (-1) hA
  obtain ⟨b, h4, h5, h5', h6⟩ :=
    assignM_ok (v := ⟨A.R, A.C, r, c, fun _ _ => none⟩) 0 hA.1 hA.2.1 rfl rfl h3
  refine ⟨b, ?_, h5, h5', ?_⟩
  · unfold mnegate
    rw [hA.2.2.1, hA.2.2.2.1, allocM_eq hA.1 hA.2.1, Outcome.bind_ok, h1, Outcome.bind_ok, h4]
  · have : (fun i j => sca Sca.mul (X i j) (-1)) = -X := by
      funext i j; simp [sca]
    rwa [this] at h6

theorem matMat_ok {A B : MB K} {r n c : Nat} {X : Matrix (Fin r) (Fin n) K}
    {Y : Matrix (Fin n) (Fin c) K} (hA : RepM A X) (hB : RepM B Y) :
    ∃ b, matMat A B = .ok b ∧ b.R = A.R ∧ b.C = B.C ∧ RepM b (X * Y) := by
  unfold matMat
  rw [hA.2.2.1, hA.2.2.2.1, hB.2.2.1, hB.2.2.2.1, test_eq hA.2.1.agrees hB.1.agrees, if_pos rfl,
    Outcome.bind_ok, allocM_eq hA.1 hB.2.1, Outcome.bind_ok,
    storeM_ok r c _ (extM 0 (X * Y)) _ (fun i j hi hj => by
      obtain ⟨p, h1, _, h3⟩ := RepV.row hA i hi
      obtain ⟨q, h4, _, h6⟩ := RepV.row hB.T j hj
      rw [h1, Outcome.bind_ok, h4, Outcome.bind_ok, dotB_ok h3 h6]
      simp [extM, hi, hj, Matrix.mul_apply, dotProduct]) le_rfl le_rfl]
  exact ⟨_, rfl, rfl, rfl, repM_mk hA.1 hB.2.1 _ _ fun i j => by
    rw [if_pos ⟨i.2, j.2⟩, extM_fin]⟩

theorem matMat_ne {A B : MB K} {r n n' c : Nat} {X : Matrix (Fin r) (Fin n) K}
    {Y : Matrix (Fin n') (Fin c) K} (hA : RepM A X) (hB : RepM B Y) (h : n ≠ n') :
    matMat A B = .abort := by
  unfold matMat
  rw [hA.2.2.2.1, hB.2.2.1, test_eq hA.2.1.agrees hB.1.agrees, if_neg h]; rfl

theorem matDiag_ok {A : MB K} {a : VB K} {r c : Nat} {X : Matrix (Fin r) (Fin c) K} {y : Fin c → K}
    (hA : RepM A X) (ha : RepV a y) :
    ∃ b, matDiag A a = .ok b ∧ b.R = A.R ∧ b.C = A.C ∧ RepM b (X * diagonal y) := by
  unfold matDiag
  rw [hA.2.2.1, hA.2.2.2.1, ha.2.1, test_eq hA.2.1.agrees ha.1, if_pos rfl, Outcome.bind_ok,
    allocM_eq hA.1 hA.2.1, Outcome.bind_ok,
    cols_ok r c _ (fun i j => extM 0 X i j * extV 0 y j) _ le_rfl (fun j t hj h1 h2 h3 h4 => by
      rw [ha.get 0 j hj, Outcome.bind_ok]
      dsimp only at h3 h4
      have e := storeCol_ok j r (fun i => (A.get i j).bind fun x => .ok (x * extV 0 y j))
        (fun i => extM 0 X i j * extV 0 y j) t
        (fun i hi => by rw [hA.get 0 i j hi hj]; rfl) (by omega) (by omega)
      rw [h3]
      rw [h3] at e
      rw [← e]
      congr 1
      funext i res
      cases A.get i j <;> rfl)]
  refine ⟨_, rfl, rfl, rfl, repM_mk hA.1 hA.2.1 _ _ fun i j => ?_⟩
  rw [if_pos ⟨i.2, j.2⟩, extM_fin, extV_fin, mul_diagonal]

theorem matDiag_ne {A : MB K} {a : VB K} {r c n : Nat} {X : Matrix (Fin r) (Fin c) K} {y : Fin n → K}
    (hA : RepM A X) (ha : RepV a y) (h : c ≠ n) : matDiag A a = .abort := by
  unfold matDiag
  rw [hA.2.2.2.1, ha.2.1, test_eq hA.2.1.agrees ha.1, if_neg h]; rfl

theorem diagMat_ok {A : MB K} {a : VB K} {r c : Nat} {X : Matrix (Fin r) (Fin c) K} {y : Fin r → K}
    (hA : RepM A X) (ha : RepV a y) :
    ∃ b, diagMat a A = .ok b ∧ b.R = A.R ∧ b.C = A.C ∧ RepM b (diagonal y * X) := by
  unfold diagMat
  rw [hA.2.2.1, hA.2.2.2.1, ha.2.1, test_eq hA.1.agrees ha.1, if_pos rfl, Outcome.bind_ok,
    allocM_eq hA.1 hA.2.1, Outcome.bind_ok,
    rows_ok r c _ (fun i j => extV 0 y i * extM 0 X i j) _ le_rfl (fun i t hi h1 h2 h3 h4 => by
      rw [ha.get 0 i hi, Outcome.bind_ok]
      dsimp only at h3 h4
      have e := storeRow_ok i c (fun j => (A.get i j).bind fun x => .ok (extV 0 y i * x))
        (fun j => extV 0 y i * extM 0 X i j) t
        (fun j hj => by rw [hA.get 0 i j hi hj]; rfl) (by omega) (by omega)
      rw [h4]
      rw [h4] at e
      rw [← e]
      congr 1
      funext j res
      cases A.get i j <;> rfl)]
  refine ⟨_, rfl, rfl, rfl, repM_mk hA.1 hA.2.1 _ _ fun i j => ?_⟩
  rw [if_pos ⟨i.2, j.2⟩, extM_fin, extV_fin, diagonal_mul]

theorem diagMat_ne {A : MB K} {a : VB K} {r c n : Nat} {X : Matrix (Fin r) (Fin c) K} {y : Fin n → K}
    (hA : RepM A X) (ha : RepV a y) (h : r ≠ n) : diagMat a A = .abort := by
  unfold diagMat
  rw [hA.2.2.1, ha.2.1, test_eq hA.1.agrees ha.1, if_neg h]; rfl

theorem onesMB_ok {R C : Int} {r c r' c' : Nat} (hR : AgreesM R r') (hC : AgreesM C c')
    (ha : (allocM R C r c : Outcome (MB K)) = .ok ⟨R, C, r', c', fun _ _ => none⟩) (s : K) :
    ∃ b, onesMB R C r c s = .ok b ∧ b.R = R ∧ b.C = C ∧
      RepM b (fun (_ : Fin r') (_ : Fin c') => s) := by
  unfold onesMB
  rw [ha, Outcome.bind_ok, storeM_ok r' c' _ (fun _ _ => s) _ (fun i j _ _ => rfl) le_rfl le_rfl]
  exact ⟨_, rfl, rfl, rfl, repM_mk hR hC _ _ fun i j => by rw [if_pos ⟨i.2, j.2⟩]⟩

theorem diagLoop_ok (k : Nat) (body : Nat → MB K → Outcome (MB K)) (g : Nat → K) (m : MB K)
    (hb : ∀ i (t : MB K), i < k → t.R = m.R → t.C = m.C → t.r = m.r → t.c = m.c →
      t.cell i i = m.cell i i →
      body i t = .ok { t with cell := fun i' j' => if i' = i ∧ j' = i then some (g i) else t.cell i' j' }) :
    forO k body m = .ok ⟨m.R, m.C, m.r, m.c,
      fun i j => if i < k ∧ j = i then some (g i) else m.cell i j⟩ := by
  have := forO_inv (fun k (t : MB K) => t = ⟨m.R, m.C, m.r, m.c,
      fun i j => if i < k ∧ j = i then some (g i) else m.cell i j⟩) k body m (by simp) (by
      intro i t hi ht
      refine ⟨_, hb i t hi (by rw [ht]) (by rw [ht]) (by rw [ht]) (by rw [ht]) (by rw [ht]; simp), ?_⟩
      subst ht
      congr 1
      funext i' j'
      dsimp only
      by_cases h1 : i' = i
      · subst h1
        by_cases h2 : j' = i' <;> simp [h2]
      · have e : (i' < i + 1) ↔ (i' < i) := by omega
        simp [h1, e])
  obtain ⟨t, h1, h2⟩ := this
  rw [h1, h2]

theorem identEval_ok {m : MB K} {n : Nat} (hR : AgreesM m.R n) (hC : AgreesM m.C n) (hr : m.r = n)
    (hc : m.c = n) (s : K) :
    ∃ b, identEval s m = .ok b ∧ b.R = m.R ∧ b.C = m.C ∧
      RepM b (s • (1 : Matrix (Fin n) (Fin n) K)) := by
  obtain ⟨R, C, r, c, cell⟩ := m
  dsimp only at hR hC hr hc
  subst hr hc
  unfold identEval
  rw [test_eq hR.agrees hC.agrees, if_pos rfl, Outcome.bind_ok,
    storeM_ok c c _ (fun _ _ => 0) _ (fun i j _ _ => rfl) le_rfl le_rfl, Outcome.bind_ok,
    diagLoop_ok c _ (fun _ => s) _ (fun i t hi h1 h2 h3 h4 h5 => by
      rw [MB.set, if_pos (by rw [h3, h4]; exact ⟨hi, hi⟩)])]
  refine ⟨_, rfl, rfl, rfl, repM_mk hR hC _ _ fun i j => ?_⟩
  by_cases h : j = i
  · subst h; simp
  · have h' : ¬ (j : Nat) = i := fun e => h (Fin.ext e)
    have h'' : ¬ i = j := fun e => h e.symm
    simp [h', Matrix.one_apply, h'']

theorem identEval_ne {m : MB K} {r c : Nat} (hR : AgreesM m.R r) (hC : AgreesM m.C c) (hr : m.r = r)
    (hc : m.c = c) (h : r ≠ c) (s : K) : identEval s m = .abort := by
  unfold identEval
  rw [hr, hc, test_eq hR.agrees hC.agrees, if_neg h]; rfl

theorem scalarsM_ok {A : MB K} {r c : Nat} {X : Matrix (Fin r) (Fin c) K} (o : Mode) (s : K)
    (hA : RepM A X) : ∃ b, scalarsM o A s = .ok b ∧ b.R = A.R ∧ b.C = A.C ∧
      RepM b (mode o X (fun _ _ => s)) := by
  unfold scalarsM
  rw [hA.2.2.1, hA.2.2.2.1, allocM_eq hA.1 hA.2.1, Outcome.bind_ok,
    storeM_ok r c _ (fun i j => mode o (extM 0 X i j) s) _ (fun i j hi hj => by
      rw [hA.get 0 i j hi hj]
      cases o
      · show Outcome.ok (s + _) = Outcome.ok (_ + s); rw [add_comm]
      · show Outcome.ok (-s + _) = Outcome.ok (_ - s); rw [neg_add_eq_sub]
      · rfl) le_rfl le_rfl]
  refine ⟨_, rfl, rfl, rfl, repM_mk hA.1 hA.2.1 _ _ fun i j => ?_⟩
  rw [if_pos ⟨i.2, j.2⟩, extM_fin]
  cases o <;> rfl

theorem addIdent_ok {A : MB K} {n : Nat} {X : Matrix (Fin n) (Fin n) K} (o : Mode) (s : K)
    (hA : RepM A X) : ∃ b, addIdent o A s = .ok b ∧ b.R = A.R ∧ b.C = A.C ∧
      RepM b (mode o X (s • 1)) := by
  unfold addIdent
  rw [hA.2.2.1, hA.2.2.2.1, test_eq hA.1.agrees hA.2.1.agrees, if_pos rfl, Outcome.bind_ok,
    allocM_eq hA.1 hA.2.1, Outcome.bind_ok,
    storeM_ok n n _ (fun i j => mode o (extM 0 X i j) 0) _ (fun i j hi hj => by
      rw [hA.get 0 i j hi hj]
      cases o
      · show Outcome.ok _ = Outcome.ok (_ + 0); rw [add_zero]
      · show Outcome.ok _ = Outcome.ok (_ - 0); rw [sub_zero]
      · show Outcome.ok (-_) = Outcome.ok (0 - _); rw [zero_sub]) le_rfl le_rfl, Outcome.bind_ok,
    diagLoop_ok n _ (fun i => mode o (extM 0 X i i) s) _ (fun i t hi h1 h2 h3 h4 h5 => by
      dsimp only at h3 h4 h5
      rw [if_pos ⟨hi, hi⟩] at h5
      rw [MB.get, if_pos (by rw [h3, h4]; exact ⟨hi, hi⟩), h5]
      dsimp only
      rw [Outcome.bind_ok, MB.set, if_pos (by rw [h3, h4]; exact ⟨hi, hi⟩)]
      congr 2
      have : mode o (extM 0 X i i) 0 + (match o with | .rsub => -s | _ => s) = mode o (extM 0 X i i) s := by
        cases o
        · show _ + 0 + s = _ + s; ring
        · show _ - 0 + -s = _ - s; ring
        · show 0 - _ + s = s - _; ring
      rw [← this]
      cases o <;> rfl)]
  refine ⟨_, rfl, rfl, rfl, repM_mk hA.1 hA.2.1 _ _ fun i j => ?_⟩
  by_cases h : j = i
  · subst h
    rw [if_pos ⟨j.2, rfl⟩, extM_fin]
    cases o <;> simp [mode]
  · have h' : ¬ (j : Nat) = i := fun e => h (Fin.ext e)
    have h'' : ¬ i = j := fun e => h e.symm
    rw [if_neg (by tauto)]
    dsimp only
    rw [if_pos ⟨i.2, j.2⟩, extM_fin]
    cases o <;> simp [mode, Matrix.one_apply, h'']

theorem addIdent_ne {A : MB K} {r c : Nat} {X : Matrix (Fin r) (Fin c) K} (o : Mode) (s : K)
    (hA : RepM A X) (h : r ≠ c) : addIdent o A s = .abort := by
  unfold addIdent
  rw [hA.2.2.1, hA.2.2.2.1, test_eq hA.1.agrees hA.2.1.agrees, if_neg h]; rfl

theorem agrees_one : AgreesM 1 1 := Or.inr ⟨by norm_num, by norm_num⟩

theorem asColB_ok {a : VB K} {n : Nat} {x : Fin n → K} (ha : RepV a x) (h : a.S ≠ Checks.Resizable) :
    ∃ b, asColB a = .ok b ∧ b.R = a.S ∧ b.C = 1 ∧ RepM b (fun (i : Fin n) (_ : Fin 1) => x i) := by
  unfold asColB
  rw [if_neg h]
  exact ⟨_, rfl, rfl, rfl, ha.1.toM h, agrees_one, ha.2.1, rfl, fun i _ => ha.2.2 i⟩

theorem asRowB_ok {a : VB K} {n : Nat} {x : Fin n → K} (ha : RepV a x) (h : a.S ≠ Checks.Resizable) :
    ∃ b, asRowB a = .ok b ∧ b.R = 1 ∧ b.C = a.S ∧ RepM b (fun (_ : Fin 1) (i : Fin n) => x i) := by
  unfold asRowB
  rw [if_neg h]
  exact ⟨_, rfl, rfl, rfl, agrees_one, ha.1.toM h, rfl, ha.2.1, fun _ i => ha.2.2 i⟩

end TooN.Expr
