import Verif.Model.DebugRandom
import Verif.Proof.Thread
import Mathlib.Tactic
/-!
# C73: filling new storage with random bytes
-/
set_option linter.unusedSimpArgs false
namespace TooN.DebugRandom
open TooN.Thread

/-- the generator's `n`-th value after `s` -/
def nth (s : Nat) : Nat → Nat
  | 0 => s
  | n+1 => next (nth s n)

theorem nth_next (s n : Nat) : nth (next s) n = next (nth s n) := by
  induction n with
  | zero => rfl
  | succ n ih => unfold nth; rw [ih]

theorem group_fst (s : Nat) (n k i : Nat) (m : Bytes) : (group s k i m n).1 = i + n := by
  induction n generalizing k i m with
  | zero => rfl
  | succ n ih => unfold group; rw [ih]; omega

theorem group_snd (s : Nat) (n k i : Nat) (m : Bytes) (j : Nat) :
    (group s k i m n).2 j = if i ≤ j ∧ j < i + n then some (byteOf s (k + (j - i))) else m j := by
  induction n generalizing k i m with
  | zero => unfold group; rw [if_neg (by omega)]
  | succ n ih =>
    unfold group
    rw [ih]
    by_cases h : i + 1 ≤ j ∧ j < i + 1 + n
    · rw [if_pos h, if_pos (by omega)]
      congr 2; omega
    · rw [if_neg h]
      unfold put
      by_cases hj : j = i
      · subst hj; rw [if_pos rfl, if_pos (by omega)]; simp
      · rw [if_neg hj, if_neg (by omega)]

theorem passes_spec (bytes fuel s i : Nat) (m : Bytes) (q : Nat) (hq : i + 4 * q = bytes) (hf : q ≤ fuel) :
    ∃ m', passes bytes fuel s i m = some (nth s q, m') ∧
      ∀ j, m' j = if i ≤ j ∧ j < bytes then some (byteOf (nth s ((j - i) / 4)) ((j - i) % 4)) else m j := by
  induction q generalizing fuel s i m with
  | zero =>
    refine ⟨m, ?_, fun j => by rw [if_neg (by omega)]⟩
    cases fuel <;> · unfold passes; rw [if_neg (by omega)]; rfl
  | succ q ih =>
    obtain ⟨fuel, rfl⟩ : ∃ f, fuel = f + 1 := ⟨fuel - 1, by omega⟩
    unfold passes
    rw [if_pos (by omega)]
    dsimp only
    rw [group_fst]
    obtain ⟨m', h1, h2⟩ := ih fuel (next s) (i + 4) (group s 0 i m 4).2 (by omega) (by omega)
    refine ⟨m', by rw [h1, nth_next]; rfl, fun j => ?_⟩
    rw [h2, group_snd]
    by_cases h : i + 4 ≤ j ∧ j < bytes
    · rw [if_pos h, if_pos (by omega)]
      rw [nth_next, show (j - i) / 4 = (j - (i + 4)) / 4 + 1 by omega,
        show (j - i) % 4 = (j - (i + 4)) % 4 by omega]
      rfl
    · rw [if_neg h]
      by_cases h' : i ≤ j ∧ j < i + 4
      · rw [if_pos h', if_pos (by omega)]
        rw [show (j - i) / 4 = 0 by omega, show (j - i) % 4 = 0 + (j - i) by omega]
        rfl
      · rw [if_neg h', if_neg (by omega)]

theorem entry_eq (bytes : Nat) : entry bytes = (4 - bytes % 4) % 4 := by
  unfold entry
  have : bytes % 4 < 4 := Nat.mod_lt _ (by norm_num)
  interval_cases bytes % 4 <;> rfl

/-- **C73** For a non-empty array of any number of bytes, the fill ends, writes every byte of the array and nothing
else: byte `j` is the byte `(j+o) % 4` of the generator's value number `(j+o)/4`, where `o` is the number
of bytes missing to a multiple of four. -/
theorem c73_fill_partial (bytes s : Nat) (m : Bytes) (h : 0 < bytes) :
    ∃ m', fill bytes s m = some (nth s ((bytes + 3) / 4), m') ∧
      (∀ j, j < bytes → m' j = some (byteOf (nth s ((j + (4 - bytes % 4) % 4) / 4))
        ((j + (4 - bytes % 4) % 4) % 4))) ∧
      ∀ j, bytes ≤ j → m' j = m j := by
  obtain ⟨k, hk⟩ : ∃ k, entry bytes = k := ⟨_, rfl⟩
  have hk' := entry_eq bytes
  rw [hk] at hk'
  unfold fill
  dsimp only
  rw [hk, group_fst, ← hk']
  obtain ⟨m', h1, h2⟩ := passes_spec bytes bytes (next s) (0 + (4 - k)) (group s k 0 m (4 - k)).2
    ((bytes + k) / 4 - 1) (by omega) (by omega)
  refine ⟨m', ?_, fun j hj => ?_, fun j hj => ?_⟩
  · rw [h1, nth_next, show (bytes + 3) / 4 = ((bytes + k) / 4 - 1) + 1 by omega]; rfl
  · rw [h2, group_snd]
    by_cases hb : 0 + (4 - k) ≤ j ∧ j < bytes
    · rw [if_pos hb, nth_next, show (j + k) / 4 = (j - (0 + (4 - k))) / 4 + 1 by omega,
        show (j + k) % 4 = (j - (0 + (4 - k))) % 4 by omega]
      rfl
    · rw [if_neg hb, if_pos (by omega), show (j + k) / 4 = 0 by omega,
        show (j + k) % 4 = k + (j - 0) by omega]
      rfl
  · rw [h2, group_snd, if_neg (by omega), if_neg (by omega)]

/-- **C73** An empty array (`Vector<> v(0)`) is not handled: four bytes beyond it are overwritten. -/
theorem c73_empty_wrong (s : Nat) (m : Bytes) :
    ∃ m', fill 0 s m = some (next s, m') ∧ ∀ j, j < 4 → m' j = some (byteOf s j) := by
  refine ⟨(group s 0 0 m 4).2, rfl, fun j hj => ?_⟩
  rw [group_snd, if_pos (by omega)]; simp

/-- **C73** The generator stays in 32 bits, and what is written are bytes. -/
theorem c73_range (s : Nat) (n k : Nat) : nth (next s) n < 4294967296 ∧ byteOf s k < 256 := by
  refine ⟨?_, Nat.mod_lt _ (by norm_num)⟩
  cases n with
  | zero => exact Nat.mod_lt _ (by norm_num)
  | succ n => exact Nat.mod_lt _ (by norm_num)

example : fill 7 (seed 0) (fun _ => none) ≠ none := by decide

/-! ## Threads -/

theorem sys_lawful : sys.Lawful := by
  refine ⟨fun a m m' h => ?_, fun a m m' h l hl => ?_, fun a m l hl => ?_⟩
  · cases a with
    | readGen => have := h .gen rfl; exact Val.nat.inj this
    | writeGen s => rfl
    | writeByte v i b => rfl
  · cases a with
    | readGen => exact hl.elim
    | writeGen s => cases (show l = .gen from hl); rfl
    | writeByte v i b =>
      cases (show l = .byte v i from hl)
      show Val.byte _ = Val.byte _
      simp [put]
  · cases a with
    | readGen => rfl
    | writeGen s => cases l with | gen => exact (hl rfl).elim | byte v i => rfl
    | writeByte v i b =>
      cases l with
      | gen => rfl
      | byte w j =>
        show Val.byte _ = Val.byte _
        have : ¬ (w = v ∧ j = i) := fun h => hl (by rw [h.1, h.2]; rfl)
        simp only
        by_cases hw : w = v
        · subst hw; rw [if_pos rfl]; unfold put; rw [if_neg (fun h => this ⟨rfl, h⟩)]
        · rw [if_neg hw]

def setBuf (m : Mem) (s : Nat) (v : Nat) (b : Bytes) : Mem := ⟨s, fun w => if w = v then b else m.buf w⟩

theorem groupT_run (v n k i : Nat) (m : Mem) :
    (groupT v k i n).run m =
      (setBuf m m.gen v (group m.gen k i (m.buf v) n).2, (group m.gen k i (m.buf v) n).1) := by
  induction n generalizing k i m with
  | zero =>
    unfold groupT group Th.run setBuf
    cases m
    simp only [Prod.mk.injEq, Mem.mk.injEq, true_and, and_true]
    funext w
    by_cases h : w = v
    · subst h; simp
    · simp [h]
  | succ n ih =>
    unfold groupT group
    show ((groupT v (k+1) (i+1) n).run _) = _
    rw [ih]
    simp only [setBuf, if_true, Prod.mk.injEq, Mem.mk.injEq, true_and, and_true]
    funext w
    by_cases h : w = v <;> simp [h]

theorem passesT_run (v bytes fuel i : Nat) (m : Mem) (s' : Nat) (b' : Bytes)
    (h : passes bytes fuel m.gen i (m.buf v) = some (s', b')) :
    (passesT v bytes fuel i).run m = (setBuf m s' v b', true) := by
  induction fuel generalizing i m with
  | zero =>
    unfold passes at h
    unfold passesT
    split at h
    · cases h
    · rename_i hi
      cases h
      simp only [Th.run, setBuf, hi, Prod.mk.injEq]
      cases m
      simp only [Mem.mk.injEq, true_and, decide_false, Bool.not_false, and_true]
      funext w
      by_cases h : w = v
      · subst h; simp
      · simp [h]
  | succ fuel ih =>
    unfold passes at h
    unfold passesT
    by_cases hi : i < bytes
    · rw [if_pos hi] at h ⊢
      rw [Th.run_bind, groupT_run]
      dsimp only
      rw [Th.run_bind]
      show (passesT v bytes fuel _).run ⟨next m.gen, _⟩ = _
      have := ih (group m.gen 0 i (m.buf v) 4).1
        ⟨next m.gen, (setBuf m m.gen v (group m.gen 0 i (m.buf v) 4).2).buf⟩ (by
          simp only [setBuf, if_true]; exact h)
      refine this.trans ?_
      simp only [setBuf, Prod.mk.injEq, Mem.mk.injEq, true_and, and_true]
      funext w
      by_cases h : w = v <;> simp [h]
    · rw [if_neg hi] at h ⊢
      cases h
      simp only [Th.run, setBuf, Prod.mk.injEq]
      cases m
      simp only [Mem.mk.injEq, true_and, and_true]
      funext w
      by_cases h : w = v
      · subst h; simp
      · simp [h]

/-- Running alone, the access-by-access program does what `fill` does. -/
theorem fillT_run (v bytes : Nat) (m : Mem) (s' : Nat) (b' : Bytes)
    (h : fill bytes m.gen (m.buf v) = some (s', b')) :
    (fillT v bytes).run m = (setBuf m s' v b', true) := by
  unfold fill at h
  unfold fillT
  dsimp only at h ⊢
  rw [Th.run_bind, groupT_run]
  dsimp only
  rw [Th.run_bind]
  show (passesT v bytes bytes _).run ⟨next m.gen, _⟩ = _
  generalize entry bytes = k at *
  have := passesT_run v bytes bytes (group m.gen k 0 (m.buf v) (4 - k)).1
    ⟨next m.gen, (setBuf m m.gen v (group m.gen k 0 (m.buf v) (4 - k)).2).buf⟩ s' b' (by
      simp only [setBuf, if_true]; exact h)
  refine this.trans ?_
  simp only [setBuf, Prod.mk.injEq, Mem.mk.injEq, true_and, and_true]
  funext w
  by_cases h : w = v <;> simp [h]

/-- **C73** Two threads that construct *separate* vectors, of any numbers of bytes, race for the
generator: there is a schedule in which one is about to update it while the other is about to read it. -/
theorem c73_threads_wrong (m : Mem) (b0 b1 : Nat) :
    ∃ n c, Steps (⟨m, fun i : Fin 2 => fillT i (if i = 0 then b0 else b1)⟩ : Config sys (Fin 2) Bool) n c ∧
      Race c := by
  obtain ⟨q, c, h1, h2, h3, h4⟩ := solo (ι := Fin 2) (α := Bool)
    (groupT (0 : Fin 2) (entry b0) 0 (4 - entry b0))
    (fun i => stepGenT.bind fun _ => passesT 0 b0 b0 i)
    ⟨m, fun i : Fin 2 => fillT i (if i = 0 then b0 else b1)⟩ 0 rfl
  obtain ⟨g, hg⟩ : ∃ g, fillT 1 b1 = .act .readGen g := by
    unfold fillT
    have : 4 - entry b1 = (3 - entry b1) + 1 := by rw [entry_eq]; omega
    rw [this]
    exact ⟨_, rfl⟩
  have h5 : c.th 1 = .act .readGen g := (h4 1 (by decide)).trans hg
  obtain ⟨f, hf⟩ : ∃ f : Th sys Bool, f = .act (.writeGen (next c.mem.gen)) fun _ =>
    passesT 0 b0 b0 ((groupT (0 : Fin 2) (entry b0) 0 (4 - entry b0)).run m).2 := ⟨_, rfl⟩
  have hs : Step c ⟨c.mem, Function.update c.th 0 f⟩ := by
    rw [hf]; exact .mk c 0 .readGen _ h3
  have e0 : Function.update c.th 0 f 0 = f := Function.update_self _ _ _
  have e1 : Function.update c.th 0 f 1 = c.th 1 := Function.update_of_ne (by decide) _ _
  exact ⟨q + 1, _, .step h1 hs, 0, 1, .writeGen (next c.mem.gen), _,
    .readGen, g, by decide, e0.trans hf, e1.trans h5, .gen, rfl, .inl rfl⟩

end TooN.DebugRandom
