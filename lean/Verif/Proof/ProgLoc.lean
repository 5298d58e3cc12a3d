import Verif.Proof.Prog
/-!
# Views: positions and contents (for C66)
-/
set_option linter.unusedSectionVars false
set_option linter.unusedSimpArgs false
namespace TooN.Expr
open Matrix

variable {K : Type} [Field K]

/-- the located view `l` of the expression `L`, which evaluates to `b` -/
def LRep (ρ : CEnv K) (σ : SEnv K) : {k : Knd} → Ex K k → CLoc k → CVal K k → Prop
  | .s, L, l, b => Loc σ L l.1 (.s l.2) ∧ ρ.InB l.1 l.2 ∧ ρ.read l.1 l.2 = .ok b
  | .v, L, l, b => l.S = b.S ∧ l.n = b.n ∧ Agrees b.S b.n ∧
      Loc σ L l.root (.v (fun k : Fin l.n => l.cell k)) ∧
      (∀ i j, i < l.n → j < l.n → l.cell i = l.cell j → i = j) ∧
      ∀ i, i < l.n → ρ.InB l.root (l.cell i) ∧ ρ.read l.root (l.cell i) = b.get i
  | .m, L, l, b => (l.R = b.R ∧ l.C = b.C ∧ l.r = b.r ∧ l.c = b.c) ∧ AgreesM b.R b.r ∧ AgreesM b.C b.c ∧
      Loc σ L l.root (.m (fun (i : Fin l.r) (j : Fin l.c) => l.cell i j)) ∧
      (∀ i j i' j', i < l.r → j < l.c → i' < l.r → j' < l.c → l.cell i j = l.cell i' j' →
        i = i' ∧ j = j') ∧
      ∀ i j, i < l.r → j < l.c → ρ.InB l.root (l.cell i j) ∧
        ρ.read l.root (l.cell i j) = b.get i j

/-- evaluation of a view and its location go together -/
def LGood (ρ : CEnv K) (σ : SEnv K) {k : Knd} (L : Ex K k) : Prop :=
  match run ρ L with
  | .ok b => ∃ l, locate ρ L = .ok l ∧ LRep ρ σ L l b
  | .abort => locate ρ L = .abort
  | .ub => locate ρ L = .ub

theorem lgood_un (ρ : CEnv K) (σ : SEnv K) {k k1 : Knd} (L : Ex K k) (a : Ex K k1)
    (f : CVal K k1 → Outcome (CVal K k)) (g : CLoc k1 → Outcome (CLoc k))
    (hr : run ρ L = (run ρ a).bind f) (hl : locate ρ L = (locate ρ a).bind g)
    (main : ∀ b l, LRep ρ σ a l b → match f b with
      | .ok b' => ∃ l', g l = .ok l' ∧ LRep ρ σ L l' b'
      | .abort => g l = .abort
      | .ub => g l = .ub)
    (ha : LGood ρ σ a) : LGood ρ σ L := by
  unfold LGood at *
  rw [hr, hl]
  cases h : run ρ a with
  | ok b =>
    rw [h] at ha
    obtain ⟨l, h1, h2⟩ := ha
    rw [h1]
    exact main b l h2
  | abort => rw [h] at ha; rw [show locate ρ a = .abort from ha]; rfl
  | ub => rw [h] at ha; rw [show locate ρ a = .ub from ha]; rfl

variable {ρ : CEnv K} {σ : SEnv K}

theorem lgood_varV (h : EnvRep ρ σ) (i : Nat) : LGood ρ σ (.varV i) := by
  unfold LGood run locate
  rcases h.v i with ⟨h1, h2⟩ | ⟨b, S, n, x, h1, h2, h3, h4⟩
  · rw [h1]
  · rw [h1]
    obtain ⟨k1, k2, k3⟩ := h4
    subst k2
    refine ⟨_, rfl, rfl, rfl, k1, .varV h2, fun i j _ _ e => by simpa using e, fun k hk => ⟨⟨b, h1, hk, rfl⟩, ?_⟩⟩
    simp only [CEnv.read, h1, if_true]

theorem lgood_varM (h : EnvRep ρ σ) (i : Nat) : LGood ρ σ (.varM i) := by
  unfold LGood run locate
  rcases h.m i with ⟨h1, h2⟩ | ⟨b, S, S', n, c, x, h1, h2, h3, h3', h4⟩
  · rw [h1]
  · rw [h1]
    obtain ⟨k1, k2, k3, k4, k5⟩ := h4
    subst k3 k4
    refine ⟨_, rfl, ⟨rfl, rfl, rfl, rfl⟩, k1, k2, .varM h2, fun i j i' j' _ _ _ _ e => by simpa using e,
      fun k l hk hl => ⟨⟨b, h1, hk, hl⟩, ?_⟩⟩
    simp only [CEnv.read, h1]

/-- reading a cell of a represented state cannot fail -/
theorem get_ok (h : EnvRep ρ σ) {r : Root} {p : Nat × Nat} {o : Outcome K} (hb : ρ.InB r p)
    (ho : ρ.read r p = o) : ∃ x, o = .ok x := by
  obtain ⟨x, hx, _⟩ := read_cell h r p hb
  exact ⟨x, ho.symm.trans hx⟩

theorem lgood_idx (h : EnvRep ρ σ) {a : Ex K .v} {i : Int} (ha : LGood ρ σ a) :
    LGood ρ σ (.idx a i) := by
  refine lgood_un ρ σ (.idx a i) a (fun a => idxB (K := K) a i) _ rfl rfl ?_ ha
  intro b l hl
  obtain ⟨h1, h2, h3, h4, h5, h6⟩ := hl
  unfold idxB
  by_cases hi0 : 0 ≤ i ∧ i < VL.n l
  · have hi : i.toNat < l.n := by omega
    rw [if_pos hi0.1, if_pos hi0]
    obtain ⟨x, hx⟩ := get_ok h (h6 _ hi).1 (h6 _ hi).2
    rw [hx]
    refine ⟨_, rfl, ?_, (h6 _ hi).1, by rw [(h6 _ hi).2, hx]⟩
    exact .idx h4 (by omega) hi
  · rw [if_neg hi0]
    by_cases h0 : 0 ≤ i
    · rw [if_pos h0]
      unfold VB.get
      rw [if_neg (by rw [← h2]; omega)]
    · rw [if_neg h0]

theorem lgood_el (h : EnvRep ρ σ) {A : Ex K .m} {i j : Int} (ha : LGood ρ σ A) :
    LGood ρ σ (.el A i j) := by
  refine lgood_un ρ σ (.el A i j) A (fun a => elB (K := K) a i j) _ rfl rfl ?_ ha
  intro b l hl
  obtain ⟨⟨h1, h1', h2, h2'⟩, h3, h3', h4, h5, h6⟩ := hl
  unfold elB
  by_cases hi0 : (0 ≤ i ∧ i < ML.r l) ∧ 0 ≤ j ∧ j < ML.c l
  · have hi : i.toNat < l.r := by omega
    have hj : j.toNat < l.c := by omega
    rw [if_pos ⟨hi0.1.1, hi0.2.1⟩, if_pos hi0]
    obtain ⟨x, hx⟩ := get_ok h (h6 _ _ hi hj).1 (h6 _ _ hi hj).2
    rw [hx]
    refine ⟨_, rfl, ?_, (h6 _ _ hi hj).1, by rw [(h6 _ _ hi hj).2, hx]⟩
    exact .el h4 (by omega) (by omega) hi hj
  · rw [if_neg hi0]
    by_cases h0 : 0 ≤ i ∧ 0 ≤ j
    · rw [if_pos h0]
      unfold MB.get
      rw [if_neg (by rw [← h2, ← h2']; omega)]
    · rw [if_neg h0]

theorem lgood_row {A : Ex K .m} {i : Int} (ha : LGood ρ σ A) : LGood ρ σ (.row A i) := by
  refine lgood_un ρ σ (.row A i) A (fun a => rowB (K := K) a i) _ rfl rfl ?_ ha
  intro b l hl
  obtain ⟨⟨h1, h1', h2, h2'⟩, h3, h3', h4, h5, h6⟩ := hl
  unfold rowB MB.row
  by_cases hi0 : 0 ≤ i ∧ i < ML.r l
  · have hi : i.toNat < l.r := by omega
    rw [if_pos hi0.1, if_pos hi0, if_pos (by rw [← h2]; exact hi)]
    refine ⟨_, rfl, h1', h2', h3'.agrees, .row h4 (by omega) hi, fun k k' hk hk' e =>
      (h5 _ _ _ _ hi hk hi hk' e).2, fun k hk => ⟨(h6 _ _ hi hk).1, (h6 _ _ hi hk).2.trans ?_⟩⟩
    have hk' : k < MB.c b := by rw [← h2']; exact hk
    have hi' : i.toNat < MB.r b := by rw [← h2]; exact hi
    simp only [MB.get, VB.get, hi', hk', and_self, if_true]
  · rw [if_neg hi0]
    by_cases h0 : 0 ≤ i
    · rw [if_pos h0, if_neg (by rw [← h2]; omega)]
    · rw [if_neg h0]

theorem loc_cast {σ : SEnv K} {L : Ex K .v} {r : Root} {n m : Nat} {cell : Nat → Nat × Nat}
    (e : n = m) (h : Loc σ L r (.v (fun k : Fin n => cell k))) :
    Loc σ L r (.v (fun k : Fin m => cell k)) := by subst e; exact h

theorem loc_castM {σ : SEnv K} {L : Ex K .m} {r : Root} {n m n' m' : Nat}
    {cell : Nat → Nat → Nat × Nat} (e : n = m) (e' : n' = m')
    (h : Loc σ L r (.m (fun (k : Fin n) (k' : Fin n') => cell k k'))) :
    Loc σ L r (.m (fun (k : Fin m) (k' : Fin m') => cell k k')) := by subst e e'; exact h

theorem lgood_diagS {A : Ex K .m} (ha : LGood ρ σ A) : LGood ρ σ (.diagS A) := by
  refine lgood_un ρ σ (.diagS A) A (fun a => .ok (diagSB (K := K) a)) _ rfl rfl ?_ ha
  intro b l hl
  obtain ⟨⟨h1, h1', h2, h2'⟩, h3, h3', h4, h5, h6⟩ := hl
  refine ⟨_, rfl, ?_, ?_, ?_, ?_, fun k k' hk hk' e =>
      (h5 k k k' k' ?_ ?_ ?_ ?_ e).2, fun k hk => ⟨(h6 k k ?_ ?_).1, (h6 k k ?_ ?_).2.trans ?_⟩⟩
  · dsimp only [diagSB]; rw [h1, h1']
  · dsimp only [diagSB]; rw [h2, h2']
  · dsimp only [diagSB]
    unfold AgreesM at h3 h3'
    unfold Agrees Typed.diagSize
    unfold Checks.Dynamic at *
    split
    · exact Or.inl rfl
    · split <;> omega
  · exact loc_cast (cell := fun i => l.cell i i) (Nat.min_comm _ _) (.diagS h4)
  all_goals first
    | (dsimp only at hk hk'; omega)
    | (dsimp only at hk; omega)
    | skip
  have hr : k < MB.r b := by rw [← h2]; dsimp only at hk; omega
  have hc : k < MB.c b := by rw [← h2']; dsimp only at hk; omega
  have hm : k < min (MB.c b) (MB.r b) := by omega
  simp only [diagSB, MB.get, VB.get, hr, hc, hm, and_self, if_true]

theorem lgood_transp {A : Ex K .m} (ha : LGood ρ σ A) : LGood ρ σ (.transp A) := by
  refine lgood_un ρ σ (.transp A) A (fun a => .ok (MB.T (K := K) a)) _ rfl rfl ?_ ha
  intro b l hl
  obtain ⟨⟨h1, h1', h2, h2'⟩, h3, h3', h4, h5, h6⟩ := hl
  refine ⟨_, rfl, ⟨h1', h1, h2', h2⟩, h3', h3, .transp h4, fun i j i' j' hi hj hi' hj' e =>
    (h5 _ _ _ _ hj hi hj' hi' e).symm, fun i j hi hj => ⟨(h6 _ _ hj hi).1, (h6 _ _ hj hi).2.trans ?_⟩⟩
  have hi' : i < MB.c b := by rw [← h2']; exact hi
  have hj' : j < MB.r b := by rw [← h2]; exact hj
  simp only [MB.get, MB.T, hi', hj', and_self, if_true]

theorem lgood_sliceV {a : Ex K .v} {start length : Int} (ha : LGood ρ σ a) :
    LGood ρ σ (.sliceV a start length) := by
  refine lgood_un ρ σ (.sliceV a start length) a (fun a => sliceB (K := K) a start length) _ rfl rfl
    ?_ ha
  intro b l hl
  obtain ⟨h1, h2, h3, h4, h5, h6⟩ := hl
  unfold sliceB
  beta_reduce
  rw [h1, h2]
  by_cases h : 0 ≤ start ∧ 0 ≤ length ∧ start + length ≤ VB.n b
  · rw [(sliceDyn_eq h3 _ _).1 h]
    obtain ⟨s, rfl⟩ := Int.eq_ofNat_of_zero_le h.1
    obtain ⟨m, rfl⟩ := Int.eq_ofNat_of_zero_le h.2.1
    have hs : s + m ≤ l.n := by rw [h2]; omega
    refine ⟨_, rfl, rfl, rfl, Or.inl rfl, ?_, fun i j hi hj e => ?_, fun i hi => ?_⟩
    · exact .sliceV (s := s) (l := m) h4 rfl rfl hs
    · dsimp only [Int.ofNat_eq_natCast, Int.toNat_natCast] at hi hj e
      have := h5 _ _ (by omega) (by omega) e; omega
    · dsimp only [Int.ofNat_eq_natCast, Int.toNat_natCast] at hi ⊢
      refine ⟨(h6 (s + i) (by omega)).1, (h6 (s + i) (by omega)).2.trans ?_⟩
      have : s + i < VB.n b := by omega
      simp only [VB.get, this, hi, if_true]
  · rw [(sliceDyn_eq h3 _ _).2 h]

theorem lgood_sliceM {A : Ex K .m} {rs cs rl cl : Int} (ha : LGood ρ σ A) :
    LGood ρ σ (.sliceM A rs cs rl cl) := by
  refine lgood_un ρ σ (.sliceM A rs cs rl cl) A (fun a => sliceMB (K := K) a rs cs rl cl) _ rfl rfl
    ?_ ha
  intro b l hl
  obtain ⟨⟨h1, h1', h2, h2'⟩, h3, h3', h4, h5, h6⟩ := hl
  unfold sliceMB
  beta_reduce
  rw [h1, h2, h1', h2']
  by_cases h : 0 ≤ rs ∧ 0 ≤ rl ∧ rs + rl ≤ MB.r b
  · rw [(sliceDyn_eq h3.agrees _ _).1 h]
    by_cases h' : 0 ≤ cs ∧ 0 ≤ cl ∧ cs + cl ≤ MB.c b
    · rw [(sliceDyn_eq h3'.agrees _ _).1 h']
      obtain ⟨s, rfl⟩ := Int.eq_ofNat_of_zero_le h.1
      obtain ⟨m, rfl⟩ := Int.eq_ofNat_of_zero_le h.2.1
      obtain ⟨s', rfl⟩ := Int.eq_ofNat_of_zero_le h'.1
      obtain ⟨m', rfl⟩ := Int.eq_ofNat_of_zero_le h'.2.1
      have hs : s + m ≤ l.r := by rw [h2]; omega
      have hs' : s' + m' ≤ l.c := by rw [h2']; omega
      refine ⟨_, rfl, ⟨rfl, rfl, rfl, rfl⟩, Or.inl rfl, Or.inl rfl, ?_,
        fun i j i' j' hi hj hi' hj' e => ?_, fun i j hi hj => ?_⟩
      · exact .sliceM (r0 := s) (c0 := s') (r1 := m) (c1 := m') h4 rfl rfl rfl rfl hs hs'
      · dsimp only [Int.ofNat_eq_natCast, Int.toNat_natCast] at hi hj hi' hj' e
        have := h5 _ _ _ _ (by omega) (by omega) (by omega) (by omega) e; omega
      · dsimp only [Int.ofNat_eq_natCast, Int.toNat_natCast] at hi hj ⊢
        refine ⟨(h6 (s + i) (s' + j) (by omega) (by omega)).1,
          (h6 (s + i) (s' + j) (by omega) (by omega)).2.trans ?_⟩
        have q : s + i < MB.r b := by omega
        have q' : s' + j < MB.c b := by omega
        simp only [MB.get, q, q', hi, hj, and_self, if_true]
    · rw [(sliceDyn_eq h3'.agrees _ _).2 h']
  · rw [(sliceDyn_eq h3.agrees _ _).2 h]

theorem lgood_asCol {a : Ex K .v} (ha : LGood ρ σ a) : LGood ρ σ (.asCol a) := by
  refine lgood_un ρ σ (.asCol a) a (fun a => asColB (K := K) a) _ rfl rfl ?_ ha
  intro b l hl
  obtain ⟨h1, h2, h3, h4, h5, h6⟩ := hl
  unfold asColB
  beta_reduce
  rw [h1]
  by_cases h : VB.S b = Checks.Resizable
  · rw [if_pos h, if_pos h]
  · rw [if_neg h, if_neg h]
    refine ⟨_, rfl, ⟨rfl, rfl, h2, rfl⟩, h3.toM h, agrees_one, .asCol h4,
      fun i j i' j' hi hj hi' hj' e => ?_, fun i j hi hj => ⟨(h6 i hi).1, (h6 i hi).2.trans ?_⟩⟩
    · dsimp only at hi hj hi' hj' e
      exact ⟨h5 _ _ hi hi' e, by omega⟩
    · dsimp only at hi hj
      have hi' : i < VB.n b := by rw [← h2]; exact hi
      simp only [MB.get, VB.get, hi', hj, and_self, if_true]

theorem lgood_asRow {a : Ex K .v} (ha : LGood ρ σ a) : LGood ρ σ (.asRow a) := by
  refine lgood_un ρ σ (.asRow a) a (fun a => asRowB (K := K) a) _ rfl rfl ?_ ha
  intro b l hl
  obtain ⟨h1, h2, h3, h4, h5, h6⟩ := hl
  unfold asRowB
  beta_reduce
  rw [h1]
  by_cases h : VB.S b = Checks.Resizable
  · rw [if_pos h, if_pos h]
  · rw [if_neg h, if_neg h]
    refine ⟨_, rfl, ⟨rfl, rfl, rfl, h2⟩, agrees_one, h3.toM h, .asRow h4,
      fun i j i' j' hi hj hi' hj' e => ?_, fun i j hi hj => ⟨(h6 j hj).1, (h6 j hj).2.trans ?_⟩⟩
    · dsimp only at hi hj hi' hj' e
      exact ⟨by omega, h5 _ _ hj hj' e⟩
    · dsimp only at hi hj
      have hj' : j < VB.n b := by rw [← h2]; exact hj
      simp only [MB.get, VB.get, hj', hi, and_self, if_true]

/-- evaluation and location of every view go together -/
theorem lgood (h : EnvRep ρ σ) : ∀ {k : Knd} (L : Ex K k), isView L = true → LGood ρ σ L
  | _, .varV i, _ => lgood_varV h i
  | _, .varM i, _ => lgood_varM h i
  | _, .idx a _, hv => lgood_idx h (lgood h a hv)
  | _, .el a _ _, hv => lgood_el h (lgood h a hv)
  | _, .sliceV a _ _, hv => lgood_sliceV (lgood h a hv)
  | _, .row a _, hv => lgood_row (lgood h a hv)
  | _, .diagS a, hv => lgood_diagS (lgood h a hv)
  | _, .transp a, hv => lgood_transp (lgood h a hv)
  | _, .sliceM a _ _ _ _, hv => lgood_sliceM (lgood h a hv)
  | _, .asCol a, hv => lgood_asCol (lgood h a hv)
  | _, .asRow a, hv => lgood_asRow (lgood h a hv)

theorem loc_isView {k : Knd} {L : Ex K k} {r : Root} {f : Val (Nat × Nat) k} (h : Loc σ L r f) :
    isView L = true := by
  induction h <;> first | rfl | assumption

/-- a view that exists has a value of the same shape -/
theorem loc_den {k : Knd} {L : Ex K k} {r : Root} {f : Val (Nat × Nat) k} (h : Loc σ L r f) :
    ∃ x, Den σ L x ∧ SameShape f x := by
  induction h with
  | varV h => exact ⟨_, .varV h, .v⟩
  | varM h => exact ⟨_, .varM h, .m⟩
  | idx _ e h ih => obtain ⟨x, h1, h2⟩ := ih; cases h2; exact ⟨_, .idx h1 e h, .s⟩
  | el _ e e' h h' ih => obtain ⟨x, h1, h2⟩ := ih; cases h2; exact ⟨_, .el h1 e e' h h', .s⟩
  | sliceV _ e e' h ih => obtain ⟨x, h1, h2⟩ := ih; cases h2; exact ⟨_, .sliceV h1 e e' h, .v⟩
  | row _ e h ih => obtain ⟨x, h1, h2⟩ := ih; cases h2; exact ⟨_, .row h1 e h, .v⟩
  | diagS _ ih => obtain ⟨x, h1, h2⟩ := ih; cases h2; exact ⟨_, .diagS h1, .v⟩
  | transp _ ih => obtain ⟨x, h1, h2⟩ := ih; cases h2; exact ⟨_, .transp h1, .m⟩
  | sliceM _ e e1 e2 e3 h h' ih =>
    obtain ⟨x, h1, h2⟩ := ih; cases h2; exact ⟨_, .sliceM h1 e e1 e2 e3 h h', .m⟩
  | asCol _ ih => obtain ⟨x, h1, h2⟩ := ih; cases h2; exact ⟨_, .asCol h1, .m⟩
  | asRow _ ih => obtain ⟨x, h1, h2⟩ := ih; cases h2; exact ⟨_, .asRow h1, .m⟩

/-- a view consists of definite cells -/
theorem loc_functional {k : Knd} {L : Ex K k} {r r' : Root} {f f' : Val (Nat × Nat) k}
    (h : Loc σ L r f) (h' : Loc σ L r' f') : r = r' ∧ f = f' := by
  induction h with
  | varV p => cases h' with | varV q => rw [p] at q; cases q; exact ⟨rfl, rfl⟩
  | varM p => cases h' with | varM q => rw [p] at q; cases q; exact ⟨rfl, rfl⟩
  | idx _ e h ih =>
    cases h' with
    | idx q e2 _ =>
      obtain ⟨rfl, hf⟩ := ih q; cases hf; obtain rfl := Int.ofNat.inj (e.symm.trans e2); exact ⟨rfl, rfl⟩
  | el _ e e1 h _ ih =>
    cases h' with
    | el q e2 e3 _ _ =>
      obtain ⟨rfl, hf⟩ := ih q; cases hf; obtain rfl := Int.ofNat.inj (e.symm.trans e2)
      obtain rfl := Int.ofNat.inj (e1.symm.trans e3); exact ⟨rfl, rfl⟩
  | sliceV _ e e1 h ih =>
    cases h' with
    | sliceV q e2 e3 _ =>
      obtain ⟨rfl, hf⟩ := ih q; cases hf; obtain rfl := Int.ofNat.inj (e.symm.trans e2)
      obtain rfl := Int.ofNat.inj (e1.symm.trans e3); exact ⟨rfl, rfl⟩
  | row _ e h ih =>
    cases h' with
    | row q e2 _ =>
      obtain ⟨rfl, hf⟩ := ih q; cases hf; obtain rfl := Int.ofNat.inj (e.symm.trans e2); exact ⟨rfl, rfl⟩
  | diagS _ ih => cases h' with | diagS q => obtain ⟨rfl, hf⟩ := ih q; cases hf; exact ⟨rfl, rfl⟩
  | transp _ ih => cases h' with | transp q => obtain ⟨rfl, hf⟩ := ih q; cases hf; exact ⟨rfl, rfl⟩
  | sliceM _ e1 f1 g1 h1 _ _ ih =>
    cases h' with
    | sliceM q e2 f2 g2 h2 _ _ =>
      obtain ⟨rfl, hf⟩ := ih q; cases hf; obtain rfl := Int.ofNat.inj (e1.symm.trans e2)
      obtain rfl := Int.ofNat.inj (f1.symm.trans f2); obtain rfl := Int.ofNat.inj (g1.symm.trans g2)
      obtain rfl := Int.ofNat.inj (h1.symm.trans h2); exact ⟨rfl, rfl⟩
  | asCol _ ih => cases h' with | asCol q => obtain ⟨rfl, hf⟩ := ih q; cases hf; exact ⟨rfl, rfl⟩
  | asRow _ ih => cases h' with | asRow q => obtain ⟨rfl, hf⟩ := ih q; cases hf; exact ⟨rfl, rfl⟩

end TooN.Expr
