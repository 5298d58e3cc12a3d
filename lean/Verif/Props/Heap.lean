import Verif.Proof.Heap
/-!
# C06: owning vectors and matrices have value semantics and leak nothing
-/
namespace TooN.Heap
variable {K : Type _}

/-- **C06** For every legal history the program never performs a double free, a use after free or
an out-of-bounds access (outcome `ub`), and the visible contents of all objects are exactly those of
the value-level specification, in which every object is an independent value; a size mismatch is
reported exactly when the specification has one. -/
theorem c06_value_semantics (ops : List (Op K)) (hl : LegalRun (fun _ => none) ops) :
    (∀ a, specRun (fun _ => none) ops = some a → ∃ s, run St.empty ops = .ok s ∧ s.abs = a) ∧
    (specRun (fun _ => none) ops = none → run (St.empty : St K) ops = .abort) ∧
    run (St.empty : St K) ops ≠ .ub := by
  have e : (St.empty : St K).abs = fun _ => none := by funext x; rfl
  have := run_refines ops (St.empty : St K) inv_empty (by rw [e]; exact hl)
  rw [e] at this
  cases hr : specRun (fun _ => none) ops with
  | none =>
    rw [hr] at this
    simp only at this
    exact ⟨fun a h => (by cases h), fun _ => this, (by rw [this]; intro h; cases h)⟩
  | some a =>
    rw [hr] at this
    obtain ⟨s, h1, h2, h3⟩ := this
    refine ⟨fun a' h => ⟨s, h1, ?_⟩, fun h => (by cases h), (by rw [h1]; intro h; cases h)⟩
    cases h; exact h3

/-- **C06** In every state a legal history can reach, no two objects share a buffer, and every live
buffer belongs to some live object; so once all objects are destroyed nothing is leaked. -/
theorem c06_no_sharing_no_leak (ops : List (Op K)) (hl : LegalRun (fun _ => none) ops) (s : St K)
    (h : run St.empty ops = .ok s) :
    (∀ x y o o' p, s.objs x = some o → s.objs y = some o' → o.ptr = some p → o'.ptr = some p → x = y) ∧
    (∀ p l, s.bufs p = some l → ∃ x o, s.objs x = some o ∧ o.ptr = some p) ∧
    ((∀ x, s.objs x = none) → ∀ p, s.bufs p = none) := by
  have e : (St.empty : St K).abs = fun _ => none := by funext x; rfl
  have := run_refines ops (St.empty : St K) inv_empty (by rw [e]; exact hl)
  rw [e] at this
  have hi : Inv s := by
    cases hr : specRun (fun _ => none) ops with
    | none => rw [hr] at this; simp only at this; rw [h] at this; cases this
    | some a =>
      rw [hr] at this
      obtain ⟨s', h1, h2, h3⟩ := this
      rw [h] at h1; cases h1; exact h2
  refine ⟨hi.distinct, hi.noLeak, ?_⟩
  intro hn p
  cases hp : s.bufs p with
  | none => rfl
  | some l =>
    obtain ⟨x, o, hx, _⟩ := hi.noLeak p l hp
    rw [hn x] at hx; cases hx

/-- A history exercising every operation. -/
def demo : List (Op Nat) :=
  [.construct 0 .dynVec [1,2], .copy 1 0, .write 0 1 7, .swap 0 1, .move 2 0, .assign 2 1,
   .destroy 0, .destroy 1, .destroy 2]

example : LegalRun (fun _ => none) demo := by
  simp [demo, LegalRun, Legal, specStep, upd]

/-- The specification says what the English says: a write to one object changes no other object. -/
theorem c06_write_independent (ops : List (Op K)) (x i : Nat) (v : K)
    (hl : LegalRun (fun _ => none) (ops ++ [.write x i v])) (s s' : St K)
    (h : run St.empty ops = .ok s) (h' : step s (.write x i v) = .ok s') (y : Nat) (hy : y ≠ x) :
    s'.abs y = s.abs y := by
  have e : (St.empty : St K).abs = fun _ => none := by funext x; rfl
  -- split the legality of the concatenated history
  have key : ∀ (ops : List (Op K)) (a : ASt K), LegalRun a (ops ++ [.write x i v]) →
      LegalRun a ops ∧ ∀ a', specRun a ops = some a' → Legal a' (.write x i v) := by
    intro ops
    induction ops with
    | nil => intro a ha; exact ⟨trivial, fun a' h => by cases h; exact ha.1⟩
    | cons op ops ih =>
      intro a ha
      refine ⟨⟨ha.1, fun a' h => (ih a' (ha.2 a' h)).1⟩, ?_⟩
      intro a' h
      simp only [specRun] at h
      cases hs : specStep a op with
      | none => rw [hs] at h; cases h
      | some a1 => rw [hs] at h; exact (ih a1 (ha.2 a1 hs)).2 a' h
  obtain ⟨k1, k2⟩ := key ops _ hl
  have r := run_refines ops (St.empty : St K) inv_empty (by rw [e]; exact k1)
  rw [e] at r
  cases hr : specRun (fun _ => none) ops with
  | none => rw [hr] at r; simp only at r; rw [h] at r; cases r
  | some a =>
    rw [hr] at r
    obtain ⟨s1, h1, h2, h3⟩ := r
    rw [h] at h1; cases h1
    have st := step_refines s h2 (.write x i v) (h3 ▸ k2 a hr)
    obtain ⟨o, l, ho, _⟩ := h3 ▸ k2 a hr
    simp only [specStep, ho] at st
    obtain ⟨s2, g1, g2, g3⟩ := st
    rw [h'] at g1; cases g1
    rw [g3, upd_ne _ _ _ _ hy]

/-- **C06, negative**: a moved-from dynamic vector keeps its size but has a null pointer, so unlike
standard containers it cannot be assigned to: `b = c` after `a = std::move(b)` passes the size check
and then writes through null. -/
theorem c06_assign_to_moved_from_is_ub (l l' : List K) (hlen : l.length = l'.length) (hpos : l ≠ []) :
    run (St.empty : St K) [.construct 0 .dynVec l, .construct 1 .dynVec l', .move 2 0, .assign 0 1]
      = .ub := by
  have h0 : l' ≠ [] := by
    intro h; subst h; exact hpos (List.length_eq_zero_iff.1 hlen)
  simp [run, step, construct, move, assign, St.alloc, St.setObj, St.obj, upd, St.empty, St.load,
    St.store, hlen, h0]

example : ([1,2] : List Nat).length = [3,4].length ∧ ([1,2] : List Nat) ≠ [] := by decide

/-- **C06** What the theorems above exclude is really undefined in the model: using an object that was never
constructed or has been destroyed, in any operation that reads or writes it … -/
theorem c06_dead_object_is_ub (s : St K) (x : Nat) (h : s.objs x = none) (y i : Nat) (v : K) :
    destroy s x = .ub ∧ write s x i v = .ub ∧ copy s y x = .ub ∧ move s y x = .ub ∧ assign s x y = .ub ∧
    swap s x y = .ub := by
  have : s.obj x = .ub := by unfold St.obj; rw [h]
  unfold destroy write copy move assign swap
  rw [this]
  exact ⟨rfl, rfl, rfl, rfl, rfl, rfl⟩

/-- … and deleting, reading or writing a buffer that has been deleted. -/
theorem c06_dead_buffer_is_ub (s : St K) (x p : Nat) (o : Obj) (ho : s.objs x = some o) (hp : o.ptr = some p)
    (h : s.bufs p = none) (y i : Nat) (v : K) :
    destroy s x = .ub ∧ write s x i v = .ub ∧ copy s y x = .ub := by
  have : s.obj x = .ok o := by unfold St.obj; rw [ho]
  unfold destroy write copy
  rw [this, Outcome.bind_ok, Outcome.bind_ok, Outcome.bind_ok]
  unfold St.free St.load
  rw [hp]
  dsimp only
  rw [h]
  exact ⟨rfl, rfl, rfl⟩

end TooN.Heap
