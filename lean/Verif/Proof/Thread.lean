import Verif.Spec.Thread
import Mathlib.Algebra.BigOperators.Group.Finset.Basic
import Mathlib.Algebra.BigOperators.Fin
import Mathlib.Tactic
/-!
# Separate threads do not notice each other
-/
set_option linter.unusedSectionVars false
namespace TooN.Thread
variable {S : Sys} {α β : Type}

theorem Th.run_bind (t : Th S α) (f : α → Th S β) (m : S.M) :
    (t.bind f).run m = (f (t.run m).2).run (t.run m).1 := by
  induction t generalizing m with
  | ret x => rfl
  | act a k ih => exact ih _ _
theorem Th.reads_bind (t : Th S α) (f : α → Th S β) (m : S.M) :
    (t.bind f).reads m = t.reads m ∪ (f (t.run m).2).reads (t.run m).1 := by
  induction t generalizing m with
  | ret x => exact (Set.empty_union _).symm
  | act a k ih =>
    show _ ∪ _ = (_ ∪ _) ∪ _
    rw [ih, Set.union_assoc]; rfl
theorem Th.writes_bind (t : Th S α) (f : α → Th S β) (m : S.M) :
    (t.bind f).writes m = t.writes m ∪ (f (t.run m).2).writes (t.run m).1 := by
  induction t generalizing m with
  | ret x => exact (Set.empty_union _).symm
  | act a k ih =>
    show _ ∪ _ = (_ ∪ _) ∪ _
    rw [ih, Set.union_assoc]; rfl

theorem Th.bind_assoc {γ : Type} (t : Th S α) (f : α → Th S β) (g : β → Th S γ) :
    (t.bind f).bind g = t.bind fun x => (f x).bind g := by
  induction t with
  | ret x => rfl
  | act a k ih => simp only [Th.bind, ih]

theorem Th.frame (hS : S.Lawful) (t : Th S α) (m : S.M) (l : S.Loc) (h : l ∉ t.writes m) :
    S.look (t.run m).1 l = S.look m l := by
  induction t generalizing m with
  | ret x => rfl
  | act a k ih =>
    have h' : ¬ (l ∈ S.W a ∨ l ∈ (k (S.sem a m).2).writes (S.sem a m).1) := h
    push Not at h'
    exact (ih _ _ h'.2).trans (hS.frame a m l h'.1)

variable {ι : Type} [DecidableEq ι]

structure Inv (c0 c : Config S ι α) (g : ι → S.M) : Prop where
  run : ∀ i, (c.th i).run (g i) = (c0.th i).run c0.mem
  rd : ∀ i, (c.th i).reads (g i) ⊆ (c0.th i).reads c0.mem
  wr : ∀ i, (c.th i).writes (g i) ⊆ (c0.th i).writes c0.mem
  mem : ∀ i l, l ∈ (c0.th i).reads c0.mem ∨ l ∈ (c0.th i).writes c0.mem →
    S.look c.mem l = S.look (g i) l
  out : ∀ l, (∀ i, l ∉ (c0.th i).writes c0.mem) → S.look c.mem l = S.look c0.mem l

theorem inv_step (hS : S.Lawful) {c0 c c' : Config S ι α} (hsep : Separate c0) {g : ι → S.M}
    (hI : Inv c0 c g) (hs : Step c c') :
    ∃ g', Inv c0 c' g' ∧ ∃ i, (c.th i).len (g i) = (c'.th i).len (g' i) + 1 ∧
      ∀ j, j ≠ i → (c.th j).len (g j) = (c'.th j).len (g' j) := by
  obtain ⟨i, a, k, hi⟩ := hs
  have hrd := hI.rd i
  have hwr := hI.wr i
  rw [hi] at hrd hwr
  have hR : ∀ l ∈ S.R a, S.look c.mem l = S.look (g i) l :=
    fun l hl => hI.mem i l (.inl (hrd (.inl hl)))
  have hres := hS.res a _ _ hR
  refine ⟨Function.update g i (S.sem a (g i)).1, ⟨fun j => ?_, fun j => ?_, fun j => ?_, fun j l hl => ?_,
    fun l hl => ?_⟩, i, ?_, fun j hj => ?_⟩
  · by_cases hj : j = i
    · subst hj
      simp only [Function.update_self]
      have := hI.run j
      rw [hi] at this
      rw [← this, hres]; rfl
    · simp only [Function.update_of_ne hj]; exact hI.run j
  · by_cases hj : j = i
    · subst hj
      simp only [Function.update_self]
      rw [hres]
      exact fun l hl => hrd (.inr hl)
    · simp only [Function.update_of_ne hj]; exact hI.rd j
  · by_cases hj : j = i
    · subst hj
      simp only [Function.update_self]
      rw [hres]
      exact fun l hl => hwr (.inr hl)
    · simp only [Function.update_of_ne hj]; exact hI.wr j
  · by_cases hj : j = i
    · subst hj
      simp only [Function.update_self]
      by_cases hw : l ∈ S.W a
      · exact hS.upd a _ _ hR l hw
      · rw [hS.frame a _ l hw, hS.frame a _ l hw]; exact hI.mem j l hl
    · simp only [Function.update_of_ne hj]
      have hw : l ∉ S.W a := by
        intro hw
        have := hsep i j (Ne.symm hj) l (hwr (.inl hw))
        rcases hl with hl | hl
        · exact this.1 hl
        · exact this.2 hl
      rw [hS.frame a _ l hw]
      exact hI.mem j l hl
  · rw [hS.frame a _ l (fun hw => hl i (hwr (.inl hw)))]
    exact hI.out l hl
  · simp only [Function.update_self]
    rw [hi, hres]; rfl
  · simp only [Function.update_of_ne hj]

theorem inv_init (c0 : Config S ι α) : Inv c0 c0 (fun _ => c0.mem) :=
  ⟨fun _ => rfl, fun _ _ h => h, fun _ _ h => h, fun _ _ _ => rfl, fun _ _ => rfl⟩

theorem inv_steps (hS : S.Lawful) [Fintype ι] {c0 c : Config S ι α} {n : Nat} (hsep : Separate c0)
    (h : Steps c0 n c) : ∃ g, Inv c0 c g ∧
      n + ∑ i, (c.th i).len (g i) = ∑ i, (c0.th i).len c0.mem := by
  induction h with
  | refl => exact ⟨_, inv_init c0, by simp⟩
  | step h hs ih =>
    obtain ⟨g, hI, hn⟩ := ih
    obtain ⟨g', hI', i, hi, hj⟩ := inv_step hS hsep hI hs
    refine ⟨g', hI', ?_⟩
    rw [← hn, ← Finset.add_sum_erase _ _ (Finset.mem_univ i),
      ← Finset.add_sum_erase _ (fun i => Th.len _ (g i)) (Finset.mem_univ i), hi]
    have : ∑ x ∈ Finset.univ.erase i, Th.len (Config.th _ x) (g' x) =
        ∑ x ∈ Finset.univ.erase i, Th.len (Config.th _ x) (g x) :=
      Finset.sum_congr rfl fun j hjm => (hj j (Finset.ne_of_mem_erase hjm)).symm
    rw [this]; omega

theorem no_race {c0 c : Config S ι α} {g : ι → S.M} (hsep : Separate c0) (hI : Inv c0 c g) :
    ¬ Race c := by
  rintro ⟨i, j, a, k, b, k', hij, hi, hj, l, hw, hb⟩
  have h1 := hI.wr i; have h2 := hI.rd j; have h3 := hI.wr j
  rw [hi] at h1; rw [hj] at h2 h3
  have := hsep i j hij l (h1 (.inl hw))
  rcases hb with hb | hb
  · exact this.1 (h2 (.inl hb))
  · exact this.2 (h3 (.inl hb))

theorem inv_done {c0 c : Config S ι α} {g : ι → S.M} (hI : Inv c0 c g) (i : ι) (x : α)
    (h : c.th i = .ret x) : ((c0.th i).run c0.mem).2 = x ∧
      ∀ l ∈ (c0.th i).writes c0.mem, S.look c.mem l = S.look ((c0.th i).run c0.mem).1 l := by
  have := hI.run i
  rw [h] at this
  rw [← this]
  exact ⟨rfl, fun l hl => hI.mem i l (.inr hl)⟩

end TooN.Thread

namespace TooN.Thread
variable {S : Sys} {α β : Type}

/-- A thread cannot tell memories with the same contents apart. -/
theorem Th.congr (hS : S.Lawful) (t : Th S α) {m m' : S.M} (h : ∀ l, S.look m l = S.look m' l) :
    (t.run m).2 = (t.run m').2 ∧ (∀ l, S.look (t.run m).1 l = S.look (t.run m').1 l) ∧
    t.reads m = t.reads m' ∧ t.writes m = t.writes m' := by
  induction t generalizing m m' with
  | ret x => exact ⟨rfl, h, rfl, rfl⟩
  | act a k ih =>
    have hr := hS.res a m m' fun l _ => h l
    have hm : ∀ l, S.look (S.sem a m).1 l = S.look (S.sem a m').1 l := fun l => by
      by_cases hl : l ∈ S.W a
      · exact hS.upd a m m' (fun l _ => h l) l hl
      · rw [hS.frame a m l hl, hS.frame a m' l hl]; exact h l
    have := ih (S.sem a m).2 hm
    simp only [Th.run, Th.reads, Th.writes, ← hr]
    exact ⟨this.1, this.2.1, by rw [this.2.2.1], by rw [this.2.2.2]⟩

end TooN.Thread

namespace TooN.Thread
variable {S : Sys} {α β : Type} {ι : Type} [DecidableEq ι]

theorem Steps.cons {c c' c'' : Config S ι α} {n : Nat}
    (h : Step c c') (hs : Steps c' n c'') : Steps c (n + 1) c'' := by
  induction hs with
  | refl => exact .step (.refl _) h
  | step _ h2 ih => exact .step ih h2

/-- One thread runs a part of its program while the others wait. -/
theorem solo (t : Th S β) (f : β → Th S α) (c : Config S ι α) (i : ι) (h : c.th i = t.bind f) :
    ∃ q c', Steps c q c' ∧ c'.mem = (t.run c.mem).1 ∧ c'.th i = f (t.run c.mem).2 ∧
      ∀ j, j ≠ i → c'.th j = c.th j := by
  induction t generalizing c with
  | ret x => exact ⟨0, c, .refl _, rfl, h, fun _ _ => rfl⟩
  | act a k ih =>
    have s1 : Step c _ := .mk c i a _ h
    obtain ⟨q, c', h1, h2, h3, h4⟩ := ih (S.sem a c.mem).2
      ⟨(S.sem a c.mem).1, Function.update c.th i ((k (S.sem a c.mem).2).bind f)⟩
      (Function.update_self i _ _)
    exact ⟨q + 1, c', Steps.cons s1 h1, h2, h3, fun j hj =>
      (h4 j hj).trans (Function.update_of_ne hj _ _)⟩

end TooN.Thread
