import Verif.Spec.Heap
import Mathlib.Tactic.Common
namespace TooN.Heap
variable {K : Type _}

@[simp] theorem upd_self {α : Type _} (f : Nat → α) (i : Nat) (x : α) : upd f i x i = x := by
  simp [upd]
theorem upd_ne {α : Type _} (f : Nat → α) (i j : Nat) (x : α) (h : j ≠ i) : upd f i x j = f j := by
  simp [upd, h]

structure Inv (s : St K) : Prop where
  owned : ∀ x o p, s.objs x = some o → o.ptr = some p → ∃ l, s.bufs p = some l ∧ l.length = o.size
  distinct : ∀ x y o o' p, s.objs x = some o → s.objs y = some o' → o.ptr = some p →
    o'.ptr = some p → x = y
  noLeak : ∀ p l, s.bufs p = some l → ∃ x o, s.objs x = some o ∧ o.ptr = some p
  fresh : ∀ p l, s.bufs p = some l → p < s.next

theorem inv_empty : Inv (St.empty : St K) := by
  constructor <;> simp [St.empty]

theorem inv_new (s : St K) (h : Inv s) (x : Nat) (hx : s.objs x = none) (k : Kind) (l : List K) :
    Inv (((s.alloc l).2).setObj x (some ⟨k, some (s.alloc l).1, l.length⟩)) := by
  have hn : s.bufs s.next = none := by
    by_contra hc
    obtain ⟨l', hl⟩ := Option.ne_none_iff_exists'.1 hc
    have := h.fresh _ _ hl; omega
  constructor
  · intro y o p ho hp
    simp only [St.setObj, St.alloc, upd] at ho ⊢
    split at ho
    · cases ho; simp at hp; subst hp; exact ⟨l, by simp⟩
    · obtain ⟨l', h1, h2⟩ := h.owned _ _ _ ho hp
      have : p ≠ s.next := fun e => by rw [e, hn] at h1; cases h1
      exact ⟨l', by simp [this, h1], h2⟩
  · intro y z o o' p ho ho' hp hp'
    simp only [St.setObj, St.alloc, upd] at ho ho'
    split at ho <;> split at ho'
    · omega
    · cases ho; simp at hp; subst hp
      obtain ⟨l', h1, _⟩ := h.owned _ _ _ ho' hp'
      rw [hn] at h1; cases h1
    · cases ho'; simp at hp'; subst hp'
      obtain ⟨l', h1, _⟩ := h.owned _ _ _ ho hp
      rw [hn] at h1; cases h1
    · exact h.distinct _ _ _ _ _ ho ho' hp hp'
  · intro p l' hl'
    simp only [St.setObj, St.alloc, upd] at hl' ⊢
    split at hl'
    · rename_i e; exact ⟨x, ⟨k, some s.next, l.length⟩, by simp, by simp [e]⟩
    · obtain ⟨y, o, h1, h2⟩ := h.noLeak _ _ hl'
      have : y ≠ x := fun e => by rw [e, hx] at h1; cases h1
      exact ⟨y, o, by simp [this, h1], h2⟩
  · intro p l' hl'
    simp only [St.setObj, St.alloc, upd] at hl' ⊢
    split at hl'
    · omega
    · have := h.fresh _ _ hl'; omega

theorem abs_new (s : St K) (h : Inv s) (x : Nat) (k : Kind) (l : List K) :
    (((s.alloc l).2).setObj x (some ⟨k, some (s.alloc l).1, l.length⟩)).abs =
      upd s.abs x (some ⟨k, l.length, some l⟩) := by
  have hn : s.bufs s.next = none := by
    by_contra hc
    obtain ⟨l', hl⟩ := Option.ne_none_iff_exists'.1 hc
    have := h.fresh _ _ hl; omega
  funext y
  by_cases hy : y = x
  · subst hy; simp [St.abs, St.setObj, St.alloc]
  · simp only [St.abs, St.setObj, St.alloc, upd_ne _ _ _ _ hy]
    cases ho : s.objs y with
    | none => simp
    | some o =>
      simp only [Option.map_some, Option.some.injEq, AObj.mk.injEq, true_and]
      cases hp : o.ptr with
      | none => rfl
      | some p =>
        obtain ⟨l', h1, _⟩ := h.owned _ _ _ ho hp
        have : p ≠ s.next := fun e => by rw [e, hn] at h1; cases h1
        simp [upd_ne _ _ _ _ this]

/-- Overwriting the contents of the buffer of a live object. -/
theorem inv_setbuf (s : St K) (h : Inv s) (x : Nat) (o : Obj) (p : Nat) (l : List K)
    (hx : s.objs x = some o) (hp : o.ptr = some p) (hl : l.length = o.size) :
    Inv { s with bufs := upd s.bufs p (some l) } := by
  constructor
  · intro y o' q ho hq
    by_cases e : q = p
    · subst e
      have := h.distinct _ _ _ _ _ hx ho hp hq
      subst this
      have ho' : s.objs x = some o' := ho
      rw [hx] at ho'; cases ho'
      exact ⟨l, by simp, hl⟩
    · obtain ⟨l', h1, h2⟩ := h.owned _ _ _ ho hq
      exact ⟨l', by simp [upd_ne _ _ _ _ e, h1], h2⟩
  · exact h.distinct
  · intro q l' hl'
    by_cases e : q = p
    · subst e; exact ⟨x, o, hx, hp⟩
    · simp [upd_ne _ _ _ _ e] at hl'
      exact h.noLeak _ _ hl'
  · intro q l' hl'
    by_cases e : q = p
    · subst e
      obtain ⟨l'', h1, _⟩ := h.owned _ _ _ hx hp
      exact h.fresh _ _ h1
    · simp [upd_ne _ _ _ _ e] at hl'
      exact h.fresh _ _ hl'

theorem abs_setbuf (s : St K) (h : Inv s) (x : Nat) (o : Obj) (p : Nat) (l : List K)
    (hx : s.objs x = some o) (hp : o.ptr = some p) :
    St.abs { s with bufs := upd s.bufs p (some l) } =
      upd s.abs x (some ⟨o.kind, o.size, some l⟩) := by
  funext y
  by_cases hy : y = x
  · subst hy; simp [St.abs, hx, hp]
  · simp only [St.abs, upd_ne _ _ _ _ hy]
    cases ho : s.objs y with
    | none => simp
    | some o' =>
      simp only [Option.map_some, Option.some.injEq, AObj.mk.injEq, true_and]
      cases hq : o'.ptr with
      | none => rfl
      | some q =>
        have : q ≠ p := fun e => hy (h.distinct _ _ _ _ _ ho hx (e ▸ hq) hp)
        simp [upd_ne _ _ _ _ this]

theorem abs_some (s : St K) (h : Inv s) (x : Nat) (o : AObj K) (l : List K) (hx : s.abs x = some o)
    (hv : o.val = some l) : ∃ p, s.objs x = some ⟨o.kind, some p, o.size⟩ ∧ s.bufs p = some l ∧
      l.length = o.size := by
  unfold St.abs at hx
  cases ho : s.objs x with
  | none => simp [ho] at hx
  | some o' =>
    simp [ho] at hx
    subst hx
    simp at hv
    cases hp : o'.ptr with
    | none => simp [hp] at hv
    | some p =>
      simp [hp] at hv
      obtain ⟨l', h1, h2⟩ := h.owned _ _ _ ho hp
      rw [hv] at h1; cases h1
      exact ⟨p, by cases o'; simp_all, hv, h2⟩

theorem copy_ok (s : St K) (h : Inv s) (x y : Nat) (hx : s.abs x = none) (o : AObj K) (l : List K)
    (hy : s.abs y = some o) (hv : o.val = some l) :
    ∃ s', copy s x y = .ok s' ∧ Inv s' ∧ s'.abs = upd s.abs x (s.abs y) := by
  obtain ⟨p, h1, h2, h3⟩ := abs_some s h y o l hy hv
  have hx' : s.objs x = none := by simpa [St.abs] using hx
  have e : copy s x y = .ok (((s.alloc l).2).setObj x (some ⟨o.kind, some (s.alloc l).1, l.length⟩)) := by
    simp [copy, St.obj, h1, St.load, h2, ← h3, St.alloc]
  refine ⟨_, e, inv_new s h x hx' _ _, ?_⟩
  rw [abs_new s h, hy, h3]
  congr 2
  cases o; simp_all

theorem step_refines (s : St K) (h : Inv s) (op : Op K) (hl : Legal s.abs op) :
    match specStep s.abs op with
    | some a' => ∃ s', step s op = .ok s' ∧ Inv s' ∧ s'.abs = a'
    | none => step s op = .abort := by
  cases op with
  | construct x k l =>
    simp only [specStep, step, construct]
    have hx' : s.objs x = none := by simpa [Legal, St.abs] using hl
    exact ⟨_, rfl, inv_new s h x hx' k l, abs_new s h x k l⟩
  | copy x y =>
    obtain ⟨hx, o, l, hy, hv⟩ := hl
    simp only [specStep, step]
    exact copy_ok s h x y hx o l hy hv
  | move x y =>
    obtain ⟨hx, o, l, hy, hv⟩ := hl
    have hx' : s.objs x = none := by simpa [St.abs] using hx
    obtain ⟨p, h1, h2, h3⟩ := abs_some s h y o l hy hv
    have hxy : x ≠ y := fun e => by rw [e, h1] at hx'; cases hx'
    simp only [specStep, step]
    simp only [hy]
    by_cases hk : o.kind = .dynVec
    · rw [if_pos hk]
      dsimp only
      refine ⟨_, by simp [move, St.obj, h1, hk]; rfl, ?_, ?_⟩
      · constructor
        · intro z o' q ho' hq
          simp only [St.setObj, upd] at ho'
          split at ho'
          · cases ho'; cases hq
          · split at ho'
            · cases ho'; cases hq; exact ⟨l, h2, h3⟩
            · exact h.owned _ _ _ ho' hq
        · intro z w o' o'' q hz hw hq hq'
          simp only [St.setObj, upd] at hz hw
          split at hz
          · cases hz; cases hq
          · split at hw
            · cases hw; cases hq'
            · split at hz <;> split at hw
              · omega
              · cases hz; cases hq
                have := h.distinct _ _ _ _ _ h1 hw rfl hq'
                omega
              · cases hw; cases hq'
                have := h.distinct _ _ _ _ _ h1 hz rfl hq
                omega
              · exact h.distinct _ _ _ _ _ hz hw hq hq'
        · intro q l' hl'
          obtain ⟨z, o', hz, hq⟩ := h.noLeak q l' hl'
          by_cases e : z = y
          · subst e
            rw [h1] at hz; cases hz
            exact ⟨x, ⟨.dynVec, some p, o.size⟩, by simp [St.setObj, upd, hxy], hq⟩
          · have : z ≠ x := fun e => by rw [e, hx'] at hz; cases hz
            exact ⟨z, o', by simp [St.setObj, upd, e, this, hz], hq⟩
        · exact h.fresh
      · funext z
        by_cases e : z = y
        · subst e; simp [St.abs, St.setObj, hk]
        · by_cases e' : z = x
          · subst e'; simp [St.abs, St.setObj, upd_ne _ _ _ _ e, h2]
            cases o; simp_all
          · simp [St.abs, St.setObj, upd_ne _ _ _ _ e, upd_ne _ _ _ _ e']
    · rw [if_neg hk]
      have e1 : move s x y = copy s x y := by
        simp only [move, St.obj, h1, Outcome.bind_ok]
      rw [e1]
      have := copy_ok s h x y hx o l hy hv
      rw [hy] at this
      exact this
  | assign x y =>
    obtain ⟨⟨o, l, hx, hv⟩, ⟨o', l', hy, hv'⟩⟩ := hl
    obtain ⟨p, h1, h2, h3⟩ := abs_some s h x o l hx hv
    obtain ⟨p', h1', h2', h3'⟩ := abs_some s h y o' l' hy hv'
    simp only [specStep, step, hx, hy, assign, St.obj, h1, h1', Outcome.bind_ok]
    by_cases hs : o.size = o'.size
    · rw [if_pos hs]
      refine ⟨{ s with bufs := upd s.bufs p (some l') }, ?_, ?_, ?_⟩
      · simp only [hs, ne_eq, not_true_eq_false, if_false, St.load, h2', ← h3', Nat.le_refl, if_true,
          List.take_length, Outcome.bind_ok, St.store, h2]
        rw [if_pos (by omega)]
        rw [List.drop_eq_nil_of_le (by omega), List.append_nil]
      · exact inv_setbuf s h x _ p l' h1 rfl (by simp; omega)
      · rw [abs_setbuf s h x _ p l' h1 rfl]
        simp [hv']
    · rw [if_neg hs]
      simp [hs]
  | swap x y =>
    obtain ⟨o, o', l, l', hx, hy, hk, hv, hv'⟩ := hl
    obtain ⟨p, h1, h2, h3⟩ := abs_some s h x o l hx hv
    obtain ⟨p', h1', h2', h3'⟩ := abs_some s h y o' l' hy hv'
    simp only [specStep, step, hx, hy, swap, St.obj, h1, h1', Outcome.bind_ok]
    by_cases hs : o.size = o'.size
    swap
    · rw [if_neg hs]; simp [hs]
    rw [if_pos hs]
    simp only [hs, ne_eq, not_true_eq_false, if_false]
    by_cases hkd : o.kind = .dynVec
    · rw [hkd]
      dsimp only
      refine ⟨_, rfl, ?_, ?_⟩
      · by_cases hxy : x = y
        · subst hxy
          rw [h1] at h1'
          obtain ⟨e1, e2, e3⟩ : o.kind = o'.kind ∧ p = p' ∧ o.size = o'.size := by
            simpa using h1'
          have : ((s.setObj x (some ⟨Kind.dynVec, some p', o'.size⟩)).setObj x
              (some ⟨o'.kind, some p, o'.size⟩)) = s := by
            simp only [St.setObj]
            congr 1
            funext z
            by_cases e : z = x
            · subst e; simp [h1, ← e1, hkd, ← hs]
            · simp [upd_ne _ _ _ _ e]
          rw [this]; exact h
        constructor
        · intro z oz q hz hq
          simp only [St.setObj, upd] at hz
          split at hz
          · cases hz; cases hq; exact ⟨l, h2, by simp; omega⟩
          · split at hz
            · cases hz; cases hq; exact ⟨l', h2', h3'⟩
            · exact h.owned _ _ _ hz hq
        · intro z w oz ow q hz hw hq hq'
          have hpp : p ≠ p' := fun e => hxy (h.distinct _ _ _ _ _ h1 h1' rfl (e ▸ rfl))
          simp only [St.setObj, upd] at hz hw
          split at hz <;> split at hw
          · omega
          · cases hz; cases hq
            split at hw
            · cases hw; cases hq'; exact absurd rfl hpp
            · have := h.distinct _ _ _ _ _ h1 hw rfl hq'; omega
          · cases hw; cases hq'
            split at hz
            · cases hz; cases hq; exact absurd rfl hpp
            · have := h.distinct _ _ _ _ _ h1 hz rfl hq; omega
          · split at hz <;> split at hw
            · omega
            · cases hz; cases hq
              have := h.distinct _ _ _ _ _ h1' hw rfl hq'; omega
            · cases hw; cases hq'
              have := h.distinct _ _ _ _ _ h1' hz rfl hq; omega
            · exact h.distinct _ _ _ _ _ hz hw hq hq'
        · intro q lq hlq
          obtain ⟨z, oz, hz, hq⟩ := h.noLeak q lq hlq
          by_cases e : z = y
          · subst e; rw [h1'] at hz; cases hz
            exact ⟨x, ⟨.dynVec, some p', o'.size⟩, by simp [St.setObj, upd, hxy], hq⟩
          · by_cases e' : z = x
            · subst e'; rw [h1] at hz; cases hz
              exact ⟨y, ⟨o'.kind, some p, o'.size⟩, by simp [St.setObj], hq⟩
            · exact ⟨z, oz, by simp [St.setObj, upd, e, e', hz], hq⟩
        · exact h.fresh
      · funext z
        by_cases e : z = y
        · subst e; simp [St.abs, St.setObj, h2, hv]
        · by_cases e' : z = x
          · subst e'; simp [St.abs, St.setObj, upd_ne _ _ _ _ e, h2', hv']
          · simp [St.abs, St.setObj, upd_ne _ _ _ _ e, upd_ne _ _ _ _ e']
    · have key : ∃ s', (s.store (some p) l').bind (fun s => s.store (some p') l) = .ok s' ∧ Inv s' ∧
          s'.abs = upd (upd s.abs x (some { o with val := o'.val })) y (some { o' with val := o.val }) := by
        by_cases hxy : x = y
        · subst hxy
          rw [h1] at h1'
          obtain ⟨e1, e2, e3⟩ : o.kind = o'.kind ∧ p = p' ∧ o.size = o'.size := by
            simpa using h1'
          subst e2
          rw [h2] at h2'; cases h2'
          refine ⟨s, ?_, h, ?_⟩
          · have : upd (upd s.bufs p (some l)) p (some l) = s.bufs := by
              funext z; by_cases e : z = p
              · subst e; simp [h2]
              · simp [upd_ne _ _ _ _ e]
            simp [St.store, h2, this]
          · funext z; by_cases e : z = x
            · subst e; rw [hy]; simp [hv]; cases o'; simp_all
            · simp [upd_ne _ _ _ _ e]
        have hpp : p' ≠ p := fun e => hxy (h.distinct _ _ _ _ _ h1 h1' rfl (e ▸ rfl))
        have i1 := inv_setbuf s h x _ p l' h1 rfl (by simp; omega)
        have a1 := abs_setbuf s h x _ p l' h1 rfl
        have i2 := inv_setbuf _ i1 y _ p' l h1' rfl (by simp; omega)
        have a2 := abs_setbuf _ i1 y _ p' l h1' rfl
        refine ⟨_, ?_, i2, ?_⟩
        · simp only [St.store, h2]
          rw [if_pos (by omega)]
          simp only [Outcome.bind_ok, upd_ne _ _ _ _ hpp, h2']
          rw [if_pos (by omega)]
          rw [List.drop_eq_nil_of_le (by omega), List.drop_eq_nil_of_le (by omega), List.append_nil,
            List.append_nil]
        · rw [a2, a1]; simp [hv, hv']
      obtain ⟨s', k1, k2, k3⟩ := key
      refine ⟨s', ?_, k2, hs ▸ k3⟩
      rw [← k1]
      have t1 : s.load (some p) o'.size = .ok l := by
        simp only [St.load, h2]
        rw [if_pos (by omega), List.take_of_length_le (by omega)]
      have t2 : s.load (some p') o'.size = .ok l' := by
        simp only [St.load, h2']
        rw [if_pos (by omega), List.take_of_length_le (by omega)]
      rw [t1, t2]
      revert hkd
      cases o.kind <;> intro hkd
      · exact absurd rfl hkd
      · rfl
      · rfl
  | write x i v =>
    obtain ⟨o, l, hx, hv, hi⟩ := hl
    obtain ⟨p, h1, h2, h3⟩ := abs_some s h x o l hx hv
    simp only [specStep, step, hx]
    refine ⟨{ s with bufs := upd s.bufs p (some (l.set i v)) }, ?_, ?_, ?_⟩
    · simp [write, St.obj, h1, h2, show i < l.length by omega]
    · exact inv_setbuf s h x _ p _ h1 rfl (by simp [h3])
    · rw [abs_setbuf s h x _ p _ h1 rfl]; simp [hv]
  | destroy x =>
    obtain ⟨o, hx⟩ := hl
    have : ∃ oo, s.objs x = some oo := by
      cases ho : s.objs x with
      | none => simp [St.abs, ho] at hx
      | some oo => exact ⟨oo, rfl⟩
    obtain ⟨oo, ho⟩ := this
    simp only [specStep, step, destroy, St.obj, ho, Outcome.bind_ok]
    cases hp : oo.ptr with
    | none =>
      refine ⟨s.setObj x none, rfl, ?_, ?_⟩
      · constructor
        · intro z oz q hz hq
          simp only [St.setObj, upd] at hz
          split at hz
          · cases hz
          · exact h.owned _ _ _ hz hq
        · intro z w oz ow q hz hw
          simp only [St.setObj, upd] at hz hw
          split at hz
          · cases hz
          · split at hw
            · cases hw
            · exact h.distinct _ _ _ _ _ hz hw
        · intro q l hq
          obtain ⟨z, oz, hz, hzq⟩ := h.noLeak q l hq
          have : z ≠ x := fun e => by
            rw [e, ho] at hz; cases hz; rw [hp] at hzq; cases hzq
          exact ⟨z, oz, by simp [St.setObj, upd_ne _ _ _ _ this, hz], hzq⟩
        · exact h.fresh
      · funext z; by_cases e : z = x
        · subst e; simp [St.abs, St.setObj]
        · simp [St.abs, St.setObj, upd_ne _ _ _ _ e]
    | some p =>
      obtain ⟨l, h2, h3⟩ := h.owned _ _ _ ho hp
      refine ⟨_, by simp [St.free, h2]; rfl, ?_, ?_⟩
      · constructor
        · intro z oz q hz hq
          simp only [St.setObj, upd] at hz
          split at hz
          · cases hz
          · rename_i e
            obtain ⟨l', k1, k2⟩ := h.owned _ _ _ hz hq
            have : q ≠ p := fun e' => e (h.distinct _ _ _ _ _ hz ho hq (e' ▸ hp))
            exact ⟨l', by simp [St.setObj, upd_ne _ _ _ _ this, k1], k2⟩
        · intro z w oz ow q hz hw
          simp only [St.setObj, upd] at hz hw
          split at hz
          · cases hz
          · split at hw
            · cases hw
            · exact h.distinct _ _ _ _ _ hz hw
        · intro q l' hq
          simp only [St.setObj] at hq
          by_cases e : q = p
          · subst e; simp at hq
          · rw [upd_ne _ _ _ _ e] at hq
            obtain ⟨z, oz, hz, hzq⟩ := h.noLeak q l' hq
            have : z ≠ x := fun e' => by
              rw [e', ho] at hz; cases hz; rw [hp] at hzq; cases hzq; exact e rfl
            exact ⟨z, oz, by simp [St.setObj, upd_ne _ _ _ _ this, hz], hzq⟩
        · intro q l' hq
          simp only [St.setObj] at hq ⊢
          by_cases e : q = p
          · subst e; simp at hq
          · rw [upd_ne _ _ _ _ e] at hq
            exact h.fresh _ _ hq
      · funext z; by_cases e : z = x
        · subst e; simp [St.abs, St.setObj]
        · simp only [St.abs, St.setObj, upd_ne _ _ _ _ e]
          cases hz : s.objs z with
          | none => rfl
          | some oz =>
            simp only [Option.map_some, Option.some.injEq, AObj.mk.injEq, true_and]
            cases hq : oz.ptr with
            | none => rfl
            | some q =>
              have : q ≠ p := fun e' => e (h.distinct _ _ _ _ _ hz ho hq (e' ▸ hp))
              simp [upd_ne _ _ _ _ this]

theorem run_refines (ops : List (Op K)) (s : St K) (h : Inv s) (hl : LegalRun s.abs ops) :
    match specRun s.abs ops with
    | some a' => ∃ s', run s ops = .ok s' ∧ Inv s' ∧ s'.abs = a'
    | none => run s ops = .abort := by
  induction ops generalizing s with
  | nil => exact ⟨s, rfl, h, rfl⟩
  | cons op ops ih =>
    obtain ⟨hl1, hl2⟩ := hl
    have hs := step_refines s h op hl1
    simp only [specRun, run]
    cases hsp : specStep s.abs op with
    | none =>
      rw [hsp] at hs
      simp only [Option.bind_none] at hs ⊢
      rw [hs]; rfl
    | some a' =>
      rw [hsp] at hs
      obtain ⟨s', h1, h2, h3⟩ := hs
      have := ih s' h2 (h3 ▸ hl2 a' hsp)
      simp only [Option.bind_some, h1, Outcome.bind_ok]
      rw [← h3]; exact this

end TooN.Heap
