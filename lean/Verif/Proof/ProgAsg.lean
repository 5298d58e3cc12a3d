import Verif.Proof.ProgLoc
/-!
# Assignments (for C66)
-/
set_option linter.unusedSectionVars false
set_option linter.unusedSimpArgs false
namespace TooN.Expr
open Matrix

variable {K : Type} [Field K] {ρ : CEnv K} {σ : SEnv K}

/-! ## Updates -/

theorem upd_over {k : Knd} {r : Root} {f : Val (Nat × Nat) k} {y : Val K k} (hs : SameShape f y)
    (g : Nat × Nat → Option K)
    (c1 : ∀ p x, At f y p x → g p = some x ∨ (g p = none ∧ σ.cell r p = some x))
    (c2 : ∀ p, (∀ x, ¬ At f y p x) → g p = none)
    (c3 : ∀ p x, At f y p x → σ.cell r p ≠ none) : Upd σ r f y (σ.over r g) where
  same := hs
  shape := fun r' => sover_shape σ r r' g
  new := fun p x ha => by
    rcases c1 p x ha with h | ⟨h, h'⟩
    · exact sover_cell σ r g p x h (c3 p x ha)
    · rw [sover_cell_ne σ r r g p (fun _ => h)]; exact h'
  old := fun r' p hn => sover_cell_ne σ r r' g p (fun e => c2 p (hn e))

theorem upd_functional {k : Knd} {r : Root} {f : Val (Nat × Nat) k} {y : Val K k} {σ1 σ2 : SEnv K}
    (h1 : Upd σ r f y σ1) (h2 : Upd σ r f y σ2) : σ1 = σ2 := by
  refine senv_ext (fun r' => (h1.shape r').trans (h2.shape r').symm) fun r' p => ?_
  by_cases h : r' = r ∧ ∃ x, At f y p x
  · obtain ⟨rfl, x, hx⟩ := h
    rw [h1.new p x hx, h2.new p x hx]
  · have hn : r' = r → ∀ x, ¬ At f y p x := fun e x hx => h ⟨e, x, hx⟩
    rw [h1.old r' p hn, h2.old r' p hn]

theorem rden_functional {k : Knd} {L : Ex K k} {rhs : Rhs K k} {x y : Val K k}
    (hx : RDen σ L rhs x) (hy : RDen σ L rhs y) : x = y := by
  cases hx with
  | eqS p => cases hy with | eqS q => exact c65_functional σ p q
  | updS p p' =>
    cases hy with | updS q q' => cases c65_functional σ p q; cases c65_functional σ p' q'; rfl
  | eqV p => cases hy with | eqV q => exact c65_functional σ p q
  | updV p => cases hy with | updV q => exact c65_functional σ p q
  | scaV p => cases hy with | scaV q => exact c65_functional σ p q
  | onesV p p' =>
    cases hy with | onesV q q' => cases c65_functional σ p q; cases c65_functional σ p' q'; rfl
  | onesUpdV p => cases hy with | onesUpdV q => exact c65_functional σ p q
  | eqM p => cases hy with | eqM q => exact c65_functional σ p q
  | updM p => cases hy with | updM q => exact c65_functional σ p q
  | scaM p => cases hy with | scaM q => exact c65_functional σ p q
  | onesM p p' =>
    cases hy with | onesM q q' => cases c65_functional σ p q; cases c65_functional σ p' q'; rfl
  | onesUpdM p => cases hy with | onesUpdM q => exact c65_functional σ p q
  | identM p p' =>
    cases hy with | identM q q' => cases c65_functional σ p q; cases c65_functional σ p' q'; rfl
  | identUpdM p => cases hy with | identUpdM q => exact c65_functional σ p q

theorem step_functional {s : Stmt K} {σ1 σ2 : SEnv K} (h1 : Step σ s σ1) (h2 : Step σ s σ2) :
    σ1 = σ2 := by
  cases h1 with
  | declV p => cases h2 with | declV q => rw [c65_functional σ p q]
  | declM p => cases h2 with | declM q => rw [c65_functional σ p q]
  | asg n l p u =>
    cases h2 with
    | asg n' l' p' u' =>
      obtain ⟨rfl, rfl⟩ := loc_functional l l'
      obtain rfl := rden_functional p p'
      exact upd_functional u u'
    | resize q _ _ => exact absurd ⟨_, q⟩ n
  | resize p d _ =>
    cases h2 with
    | asg n _ _ _ => exact absurd ⟨_, p⟩ n
    | resize p' d' _ => rw [c65_functional σ d d']

/-! ## Outcome of a statement -/

/-- the outcome of a statement that compiled -/
def GoodOut (σ : SEnv K) (Γ : TEnv) (s : Stmt K) : Outcome (CEnv K) → Prop
  | .ok ρ' => ρ'.types = Γ ∧ ∃ σ', Step σ s σ' ∧ EnvRep ρ' σ'
  | .abort => ∀ σ', ¬ Step σ s σ'
  | .ub => False

def GoodS (ρ : CEnv K) (σ : SEnv K) (s : Stmt K) : Prop :=
  match compS ρ.types s with
  | none => ∀ σ', ¬ Step σ s σ'
  | some Γ => GoodOut σ Γ s (execS ρ s)

/-- shapes in an assignment that makes sense -/
theorem step_shape {k : Knd} {L : Ex K k} {rhs : Rhs K k} {σ' : SEnv K} (hn : ¬ Resizes σ L rhs)
    (h : Step σ (.asg L rhs) σ') : ∃ x y, Den σ L x ∧ RDen σ L rhs y ∧ SameShape x y := by
  cases h with
  | asg _ l p u =>
    obtain ⟨x, hx, hs⟩ := loc_den l
    refine ⟨x, _, hx, p, ?_⟩
    have hu := u.same
    cases hs <;> cases hu
    · exact .s
    · exact .v
    · exact .m
  | resize p _ _ => exact absurd ⟨_, p⟩ hn

theorem step_view {k : Knd} {L : Ex K k} {rhs : Rhs K k} {σ' : SEnv K}
    (h : Step σ (.asg L rhs) σ') : isView L = true ∧ ∃ x, Den σ L x := by
  cases h with
  | asg _ l p u =>
    obtain ⟨x, hx, _⟩ := loc_den l
    exact ⟨loc_isView l, x, hx⟩
  | @resize _ _ x _ _ p _ _ => cases x; exact ⟨rfl, _, .varV p⟩

theorem finish (h : EnvRep ρ σ) {k : Knd} {L : Ex K k} {rhs : Rhs K k} {r : Root}
    {f : Val (Nat × Nat) k} {y : Val K k} (hn : ¬ Resizes σ L rhs) (hl : Loc σ L r f)
    (hy : RDen σ L rhs y) (hs : SameShape f y) (g : Nat × Nat → Option K)
    (c1 : ∀ p x, At f y p x → g p = some x ∨ (g p = none ∧ σ.cell r p = some x))
    (c2 : ∀ p, (∀ x, ¬ At f y p x) → g p = none)
    (c3 : ∀ p x, At f y p x → ρ.InB r p) :
    GoodOut σ ρ.types (.asg L rhs) (.ok (ρ.over r g)) := by
  refine ⟨over_types _ _ _, σ.over r g, .asg hn hl hy (upd_over hs g c1 c2 fun p x ha => ?_),
    over_rep h r g⟩
  obtain ⟨z, _, hz⟩ := read_cell h r p (c3 p x ha)
  rw [hz]; simp

theorem finS (h : EnvRep ρ σ) {L : Ex K .s} {rhs : Rhs K .s} {l : CLoc .s} {b : CVal K .s}
    (hn : ¬ Resizes σ L rhs) (hl : LRep ρ σ L l b) (y : K) (hy : RDen σ L rhs (.s y)) :
    GoodOut σ ρ.types (.asg L rhs) (ρ.write l.1 l.2 y) := by
  obtain ⟨h1, h2, h3⟩ := hl
  rw [write_ok _ _ _ _ h2]
  refine finish h hn h1 hy .s _ (fun p x ha => ?_) (fun p hp => ?_) (fun p x ha => ?_)
  · cases ha; exact Or.inl (if_pos rfl)
  · rw [if_neg]
    rintro rfl
    exact hp y (.s _ _)
  · cases ha; exact h2

theorem finV (h : EnvRep ρ σ) {L : Ex K .v} {rhs : Rhs K .v} {l : CLoc .v} {b : CVal K .v}
    (hn : ¬ Resizes σ L rhs) (hl : LRep ρ σ L l b) (y : Fin (VL.n l) → K)
    (hy : RDen σ L rhs (.v y)) (val : CEnv K → Nat → Outcome K)
    (hv : ∀ k, k < VL.n l → val (ρ.over (VL.root l) (acc (VL.cell l) (extV 0 y) k)) k =
      .ok (extV 0 y k)) :
    GoodOut σ ρ.types (.asg L rhs) (loopV l val ρ) := by
  obtain ⟨h1, h2, h3, h4, h5, h6⟩ := hl
  unfold loopV
  rw [loop_ok ρ _ _ _ (extV 0 y) val (fun k hk => (h6 k hk).1) hv]
  refine finish h hn h4 hy .v _ (fun p x ha => ?_) (fun p hp => ?_) (fun p x ha => ?_)
  · cases ha with
    | v _ _ i =>
      left
      rw [acc_some _ _ _ h5 i i.2, extV_fin]
  · refine acc_none _ _ _ _ fun i hi e => ?_
    subst e
    exact hp (y ⟨i, hi⟩) (At.v (fun k : Fin (VL.n l) => VL.cell l k) y ⟨i, hi⟩)
  · cases ha with
    | v _ _ i => exact (h6 i i.2).1

theorem divmod_lt {r c k : Nat} (hk : k < r * c) : k / c < r ∧ k % c < c := by
  have hc : 0 < c := by
    rcases Nat.eq_zero_or_pos c with h | h
    · subst h; simp at hk
    · exact h
  exact ⟨Nat.div_lt_of_lt_mul (by rw [Nat.mul_comm]; exact hk), Nat.mod_lt _ hc⟩

theorem divmod_inj {c k k' : Nat} (h1 : k / c = k' / c) (h2 : k % c = k' % c) : k = k' := by
  rw [← Nat.div_add_mod k c, ← Nat.div_add_mod k' c, h1, h2]

theorem divmod_mk {r c : Nat} (i j : Nat) (hi : i < r) (hj : j < c) :
    i * c + j < r * c ∧ (i * c + j) / c = i ∧ (i * c + j) % c = j := by
  refine ⟨?_, ?_, ?_⟩
  · calc i * c + j < i * c + c := by omega
      _ = (i + 1) * c := by ring
      _ ≤ r * c := Nat.mul_le_mul_right _ hi
  · rw [Nat.mul_comm, Nat.mul_add_div (by omega), Nat.div_eq_of_lt hj, Nat.add_zero]
  · rw [Nat.mul_comm, Nat.mul_add_mod, Nat.mod_eq_of_lt hj]

theorem divmod_lex {c k k' : Nat} (h : k < k') :
    k / c < k' / c ∨ (k / c = k' / c ∧ k % c < k' % c) := by
  rcases Nat.lt_or_ge (k / c) (k' / c) with h1 | h1
  · exact Or.inl h1
  · right
    have h2 : k / c = k' / c := le_antisymm (Nat.div_le_div_right h.le) h1
    refine ⟨h2, ?_⟩
    have e1 := Nat.div_add_mod k c
    have e2 := Nat.div_add_mod k' c
    rw [h2] at e1
    omega

/-- the cells of a matrix view in the order of the loops -/
def flat (l : ML) : Nat → Nat × Nat := fun k => l.cell (k / l.c) (k % l.c)
def flatY {r c : Nat} (Y : Matrix (Fin r) (Fin c) K) : Nat → K := fun k => extM 0 Y (k / c) (k % c)

theorem flat_inj {l : ML} (h : ∀ i j i' j', i < l.r → j < l.c → i' < l.r → j' < l.c →
      l.cell i j = l.cell i' j' → i = i' ∧ j = j') (k k' : Nat) (hk : k < l.r * l.c)
    (hk' : k' < l.r * l.c) (e : flat l k = flat l k') : k = k' := by
  obtain ⟨a, a'⟩ := divmod_lt hk
  obtain ⟨d, d'⟩ := divmod_lt hk'
  obtain ⟨e1, e2⟩ := h _ _ _ _ a a' d d' e
  exact divmod_inj e1 e2

theorem finM (h : EnvRep ρ σ) {L : Ex K .m} {rhs : Rhs K .m} {l : CLoc .m} {b : CVal K .m}
    (hn : ¬ Resizes σ L rhs) (hl : LRep ρ σ L l b) (Y : Matrix (Fin (ML.r l)) (Fin (ML.c l)) K)
    (hy : RDen σ L rhs (.m Y)) (val : CEnv K → Nat → Nat → Outcome K)
    (hv : ∀ k, k < ML.r l * ML.c l →
      val (ρ.over (ML.root l) (acc (flat l) (flatY Y) k)) (k / ML.c l) (k % ML.c l) =
      .ok (flatY Y k)) :
    GoodOut σ ρ.types (.asg L rhs) (loopM l val ρ) := by
  obtain ⟨h1, h2, h3, h4, h5, h6⟩ := hl
  unfold loopM
  rw [forO_nested (ML.r l) (ML.c l) (fun i j ρ => (val ρ i j).bind fun y =>
    ρ.write (ML.root l) (ML.cell l i j) y)]
  have := loop_ok ρ (ML.root l) (ML.r l * ML.c l) (flat l) (flatY Y)
    (fun ρ k => val ρ (k / ML.c l) (k % ML.c l))
    (fun k hk => (h6 _ _ (divmod_lt hk).1 (divmod_lt hk).2).1) hv
  rw [show forO (ML.r l * ML.c l) (fun k s => (val s (k / ML.c l) (k % ML.c l)).bind fun y =>
    s.write (ML.root l) (ML.cell l (k / ML.c l) (k % ML.c l)) y) ρ = _ from this]
  refine finish h hn h4 hy .m _ (fun p x ha => ?_) (fun p hp => ?_) (fun p x ha => ?_)
  · cases ha with
    | m _ _ i j =>
      left
      obtain ⟨e1, e2, e3⟩ := divmod_mk (r := ML.r l) (c := ML.c l) i j i.2 j.2
      have := acc_some (flat l) (flatY Y) (ML.r l * ML.c l) (flat_inj h5) _ e1
      unfold flat flatY at this
      rw [e2, e3, extM_fin] at this
      exact this
  · refine acc_none _ _ _ _ fun k hk e => ?_
    subst e
    exact hp (Y ⟨_, (divmod_lt hk).1⟩ ⟨_, (divmod_lt hk).2⟩)
      (At.m (fun (i : Fin (ML.r l)) (j : Fin (ML.c l)) => ML.cell l i j) Y
        ⟨_, (divmod_lt hk).1⟩ ⟨_, (divmod_lt hk).2⟩)
  · cases ha with
    | m _ _ i j => exact (h6 i j i.2 j.2).1

/-! ## Reading the destination -/

theorem readV {L : Ex K .v} {l : CLoc .v} {b : CVal K .v} (hl : LRep ρ σ L l b)
    {x : Fin (VL.n l) → K} (hb : RepV b x) (z : Nat → K) (k : Nat) (hk : k < VL.n l) :
    (ρ.over (VL.root l) (acc (VL.cell l) z k)).read (VL.root l) (VL.cell l k) = .ok (extV 0 x k) := by
  obtain ⟨h1, h2, h3, h4, h5, h6⟩ := hl
  rw [read_over_ne _ _ _ _ _ fun _ => acc_none _ _ _ _ fun i hi e => by
    have := h5 i k (by omega) hk e; omega]
  rw [(h6 k hk).2, hb.get 0 k hk]

theorem readM {L : Ex K .m} {l : CLoc .m} {b : CVal K .m} (hl : LRep ρ σ L l b)
    {X : Matrix (Fin (ML.r l)) (Fin (ML.c l)) K} (hb : RepM b X) (z : Nat → K) (k : Nat)
    (hk : k < ML.r l * ML.c l) :
    (ρ.over (ML.root l) (acc (flat l) z k)).read (ML.root l) (ML.cell l (k / ML.c l) (k % ML.c l)) =
      .ok (flatY X k) := by
  obtain ⟨h1, h2, h3, h4, h5, h6⟩ := hl
  obtain ⟨d1, d2⟩ := divmod_lt hk
  rw [read_over_ne _ _ _ _ _ fun _ => acc_none _ _ _ _ fun i hi e => by
    have := flat_inj h5 i k (by omega) hk e; omega]
  rw [(h6 _ _ d1 d2).2, hb.get 0 _ _ d1 d2]
  rfl

/-! ## Reading the source -/

theorem srcV_no {e : Ex K .v} (h : EnvRep ρ σ) :
    (run ρ e = .abort → srcV ρ e = .abort) ∧ (run ρ e = .ub → srcV ρ e = .ub) := by
  unfold srcV
  by_cases hv : isView e = true
  · rw [if_pos hv]
    have := lgood h e hv
    unfold LGood at this
    constructor
    all_goals
      intro hr
      rw [hr] at this
      rw [show locate ρ e = _ from this]; rfl
  · rw [if_neg hv]
    constructor
    all_goals
      intro hr
      rw [hr]; rfl

theorem srcM_no {e : Ex K .m} (h : EnvRep ρ σ) :
    (run ρ e = .abort → srcM ρ e = .abort) ∧ (run ρ e = .ub → srcM ρ e = .ub) := by
  unfold srcM
  by_cases hv : isView e = true
  · rw [if_pos hv]
    have := lgood h e hv
    unfold LGood at this
    constructor
    all_goals
      intro hr
      rw [hr] at this
      rw [show locate ρ e = _ from this]; rfl
  · rw [if_neg hv]
    constructor
    all_goals
      intro hr
      rw [hr]; rfl

theorem srcV_ok {L e : Ex K .v} (h : EnvRep ρ σ) {l : CLoc .v} {b be : CVal K .v}
    (hl : LRep ρ σ L l b) (hz : ¬ Hazard σ L e) (hr : run ρ e = .ok be) {m : Nat} {y : Fin m → K}
    (hy : RepV be y) :
    ∃ s, srcV ρ e = .ok s ∧ s.S = VB.S be ∧ s.n = VB.n be ∧ ∀ z k, k < VL.n l → k < m →
      s.get (ρ.over (VL.root l) (acc (VL.cell l) z k)) k = .ok (extV 0 y k) := by
  unfold srcV
  by_cases hv : isView e = true
  · rw [if_pos hv]
    have := lgood h e hv
    unfold LGood at this
    rw [hr] at this
    obtain ⟨le, k1, k2⟩ := this
    rw [k1]
    obtain ⟨h1, h2, h3, h4, h5, h6⟩ := hl
    obtain ⟨j1, j2, j3, j4, j5, j6⟩ := k2
    refine ⟨.live le, rfl, j1, j2, fun z k hk hm => ?_⟩
    have hk' : k < VL.n le := by rw [j2, hy.2.1]; exact hm
    show (if k < VL.n le then _ else _) = _
    rw [if_pos hk', read_over_ne, (j6 k hk').2, hy.get 0 k hm]
    intro hroot
    refine acc_none _ _ _ _ fun i hi e => hz ?_
    refine ⟨VL.root l, VL.n l, VL.n le, _, _, h4, hroot ▸ j4, ⟨i, by omega⟩, ⟨k, hk'⟩, hi, e⟩
  · rw [if_neg hv, hr]
    refine ⟨.tmp be, rfl, rfl, rfl, fun z k _ hk => ?_⟩
    exact hy.get 0 k hk

theorem srcM_ok {L e : Ex K .m} (h : EnvRep ρ σ) {l : CLoc .m} {b be : CVal K .m}
    (hl : LRep ρ σ L l b) (hz : ¬ Hazard σ L e) (hr : run ρ e = .ok be)
    {r c : Nat} {Y : Matrix (Fin r) (Fin c) K} (hy : RepM be Y) :
    ∃ s, srcM ρ e = .ok s ∧ (s.R = MB.R be ∧ s.C = MB.C be ∧ s.r = MB.r be ∧ s.c = MB.c be) ∧
      (r = ML.r l → c = ML.c l → ∀ z k, k < ML.r l * ML.c l →
        s.get (ρ.over (ML.root l) (acc (flat l) z k)) (k / ML.c l) (k % ML.c l) =
          .ok (flatY Y k)) := by
  unfold srcM
  by_cases hv : isView e = true
  · rw [if_pos hv]
    have := lgood h e hv
    unfold LGood at this
    rw [hr] at this
    obtain ⟨le, k1, k2⟩ := this
    rw [k1]
    obtain ⟨h1, h2, h3, h4, h5, h6⟩ := hl
    obtain ⟨j1, j2, j3, j4, j5, j6⟩ := k2
    refine ⟨.live le, rfl, j1, fun e1 e2 z k hk => ?_⟩
    subst e1 e2
    obtain ⟨d1, d2⟩ := divmod_lt hk
    have hk1 : k / ML.c l < ML.r le := by rw [j1.2.2.1, hy.2.2.1]; exact d1
    have hk2 : k % ML.c l < ML.c le := by rw [j1.2.2.2, hy.2.2.2.1]; exact d2
    show (if k / ML.c l < ML.r le ∧ k % ML.c l < ML.c le then _ else _) = _
    rw [if_pos ⟨hk1, hk2⟩, read_over_ne, (j6 _ _ hk1 hk2).2, hy.get 0 _ _ d1 d2]
    · rfl
    intro hroot
    refine acc_none _ _ _ _ fun i hi e => hz ?_
    obtain ⟨i1, i2⟩ := divmod_lt (show i < ML.r l * ML.c l by omega)
    rw [hroot] at j4
    exact ⟨ML.root l, _, _, _, _, _, _, h4, j4, ⟨_, i1⟩, ⟨_, i2⟩, ⟨_, hk1⟩, ⟨_, hk2⟩,
      divmod_lex hi, e⟩
  · rw [if_neg hv, hr]
    refine ⟨.tmp be, rfl, ⟨rfl, rfl, rfl, rfl⟩, fun e1 e2 z k hk => ?_⟩
    subst e1 e2
    exact hy.get 0 _ _ (divmod_lt hk).1 (divmod_lt hk).2

end TooN.Expr
