import Verif.Props.DebugRandom
import Mathlib.NumberTheory.Multiplicity
import Mathlib.Tactic
/-!
# C73: the generator of `TOON_INITIALIZE_RANDOM` has full period
-/
namespace TooN.DebugRandom

theorem nth_add (s i d : Nat) : nth s (i + d) = nth (nth s i) d := by
  induction d with
  | zero => rfl
  | succ d ih => rw [← Nat.add_assoc]; simp only [nth]; rw [ih]

theorem nth_cong (s d : Nat) :
    (nth s d : ℤ) ≡ 1664525 ^ d * s + 1013904223 * ∑ i ∈ Finset.range d, (1664525 : ℤ) ^ i [ZMOD 4294967296] := by
  induction d with
  | zero => simp [nth]
  | succ d ih =>
    have h1 : (nth s (d + 1) : ℤ) ≡ 1664525 * nth s d + 1013904223 [ZMOD 4294967296] := by
      have : nth s (d + 1) = next (nth s d) := rfl
      rw [this]
      unfold next
      push_cast
      exact Int.mod_modEq _ _
    refine h1.trans ?_
    refine ((ih.mul_left 1664525).add_right 1013904223).trans ?_
    rw [Finset.sum_range_succ', Finset.mul_sum]
    have : ∑ i ∈ Finset.range d, (1664525 : ℤ) ^ (i + 1) = 1664525 * ∑ i ∈ Finset.range d, (1664525 : ℤ) ^ i := by
      rw [Finset.mul_sum]; exact Finset.sum_congr rfl fun i _ => pow_succ' _ _
    rw [← Finset.mul_sum, this]
    have e : 1664525 * (1664525 ^ d * (s : ℤ) + 1013904223 * ∑ i ∈ Finset.range d, (1664525 : ℤ) ^ i) + 1013904223 =
        1664525 ^ (d + 1) * s + 1013904223 * (1664525 * (∑ i ∈ Finset.range d, (1664525 : ℤ) ^ i) + 1664525 ^ 0) := by ring
    rw [e]

/-- the geometric sum is divisible by `2^32` only if the number of terms is -/
theorem geom_dvd {d : Nat} : (4294967296 : ℤ) ∣ ∑ i ∈ Finset.range d, (1664525 : ℤ) ^ i ↔ 4294967296 ∣ d := by
  rcases Nat.eq_zero_or_pos d with rfl | hd
  · simp
  have hg : (∑ i ∈ Finset.range d, (1664525 : ℤ) ^ i) * (1664525 - 1) = 1664525 ^ d - 1 := geom_sum_mul _ _
  have hm := Int.two_pow_sub_pow' (x := 1664525) (y := 1) d (by norm_num) (by norm_num)
  rw [one_pow, ← hg, emultiplicity_mul Int.prime_two, add_comm] at hm
  have hfin : emultiplicity (2 : ℤ) (1664525 - 1) ≠ ⊤ := by
    rw [ne_eq, emultiplicity_eq_top, not_not]
    exact Int.finiteMultiplicity_iff.2 ⟨by norm_num, by norm_num⟩
  have he : emultiplicity (2 : ℤ) (∑ i ∈ Finset.range d, (1664525 : ℤ) ^ i) = emultiplicity (2 : ℤ) (d : ℤ) :=
    ENat.add_right_injective_of_ne_top hfin hm
  rw [show (4294967296 : ℤ) = 2 ^ 32 by norm_num, pow_dvd_iff_le_emultiplicity, he, ← pow_dvd_iff_le_emultiplicity]
  constructor
  · intro h
    have : ((2 ^ 32 : ℕ) : ℤ) ∣ (d : ℤ) := by push_cast; exact h
    simpa using Int.natCast_dvd_natCast.1 this
  · intro h
    have := Int.natCast_dvd_natCast.2 h
    simpa using this

theorem nth_eq_iff (s d : Nat) (hs : s < 4294967296) : nth s d = s ↔ 4294967296 ∣ d := by
  rw [← geom_dvd]
  have hlt : nth s d < 4294967296 := by
    cases d with
    | zero => exact hs
    | succ d => exact Nat.mod_lt _ (by norm_num)
  have hc := nth_cong s d
  have hg : (∑ i ∈ Finset.range d, (1664525 : ℤ) ^ i) * (1664525 - 1) = 1664525 ^ d - 1 := geom_sum_mul _ _
  set S := ∑ i ∈ Finset.range d, (1664525 : ℤ) ^ i
  have key : nth s d = s ↔ (4294967296 : ℤ) ∣ S * (1664524 * s + 1013904223) := by
    have e : S * (1664524 * s + 1013904223) = (1664525 ^ d * s + 1013904223 * S) - s := by
      linear_combination (s : ℤ) * hg
    rw [e]
    constructor
    · intro h
      rw [h] at hc
      exact hc.dvd
    · intro h
      have h2 : (nth s d : ℤ) ≡ s [ZMOD 4294967296] := hc.trans (Int.modEq_iff_dvd.2 h).symm
      have h3 : nth s d ≡ s [MOD 4294967296] := (Int.natCast_modEq_iff).1 (by exact_mod_cast h2)
      unfold Nat.ModEq at h3
      rwa [Nat.mod_eq_of_lt hlt, Nat.mod_eq_of_lt hs] at h3
  rw [key]
  constructor
  · intro h
    have hcop : IsCoprime (4294967296 : ℤ) (1664524 * s + 1013904223) := by
      rw [show (4294967296 : ℤ) = 2 ^ 32 by norm_num]
      refine IsCoprime.pow_left ?_
      exact ⟨-(832262 * s + 506952111), 1, by ring⟩
    exact hcop.dvd_of_dvd_mul_right h
  · intro h
    exact Dvd.dvd.mul_right h _

/-- **C73** The generator does not get stuck: from every 32-bit state it runs through all `2^32` states before it returns to
the first. -/
theorem c73_full_period (s : Nat) (hs : s < 4294967296) :
    (∀ i j, i < 4294967296 → j < 4294967296 → nth s i = nth s j → i = j) ∧ nth s 4294967296 = s ∧
      ∀ t, t < 4294967296 → ∃ i < 4294967296, nth s i = t := by
  have hlt : ∀ i, nth s i < 4294967296 := fun i => by
    cases i with
    | zero => exact hs
    | succ d => exact Nat.mod_lt _ (by norm_num)
  have inj : ∀ i j, i < 4294967296 → j < 4294967296 → nth s i = nth s j → i = j := by
    have main : ∀ i j, i ≤ j → j < 4294967296 → nth s i = nth s j → i = j := by
      intro i j hij hj h
      obtain ⟨d, rfl⟩ := Nat.exists_eq_add_of_le hij
      rw [nth_add] at h
      have := (nth_eq_iff (nth s i) d (hlt i)).1 h.symm
      have := Nat.eq_zero_of_dvd_of_lt this (by omega)
      omega
    intro i j hi hj h
    rcases le_total i j with hij | hij
    · exact main i j hij hj h
    · exact (main j i hij hi h.symm).symm
  refine ⟨inj, (nth_eq_iff s _ hs).2 dvd_rfl, fun t ht => ?_⟩
  let g : Fin 4294967296 → Fin 4294967296 := fun i => ⟨nth s i, hlt i⟩
  have hg : Function.Injective g := fun i j h => Fin.ext (inj i j i.2 j.2 (Fin.mk.inj h))
  obtain ⟨i, hi⟩ := Finite.surjective_of_injective hg ⟨t, ht⟩
  exact ⟨i, i.2, congrArg Fin.val hi⟩

/-- **C73** The four bytes written for a state are the little-endian bytes of that state: together they determine it. -/
theorem c73_bytes (s : Nat) (hs : s < 4294967296) :
    s = byteOf s 0 + 256 * byteOf s 1 + 65536 * byteOf s 2 + 16777216 * byteOf s 3 := by
  simp only [byteOf]
  norm_num
  omega

/-- **C73** Starting at different times (modulo 2^32) starts the generator in different states. -/
theorem c73_seed (t t' : Nat) (h : seed t = seed t') : t % 4294967296 = t' % 4294967296 := by
  have e : ∀ t, seed t = nth (t % 4294967296) 1 := fun t => by
    change _ = (1664525 * (t % 4294967296) + 1013904223) % 4294967296
    rw [mul_comm 1664525]; rfl
  rw [e, e] at h
  have hn : nth (nth (t % 4294967296) 1) 4294967295 = nth (nth (t' % 4294967296) 1) 4294967295 := by rw [h]
  rw [← nth_add, ← nth_add] at hn
  have p := fun t : Nat => (c73_full_period (t % 4294967296) (Nat.mod_lt _ (by norm_num))).2.1
  have q := p t
  have q' := p t'
  rw [show 4294967296 = 1 + 4294967295 by norm_num] at q q'
  rw [← q, ← q']
  exact hn

end TooN.DebugRandom
