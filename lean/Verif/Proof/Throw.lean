import Verif.Spec.Throw
import Verif.Proof.Heap
import Mathlib.Tactic
set_option linter.unusedSectionVars false
set_option linter.unusedVariables false
namespace TooN.Heap
variable {K : Type _}
open Th

/-! ### Framing: buffers nobody points to make no difference -/

structure Fr (g : Nat → Option (List K)) (L : List Nat) (s t : St K) : Prop where
  objs : t.objs = s.objs
  next : t.next = s.next
  bufs : ∀ p, p ∉ L → t.bufs p = s.bufs p
  dead : ∀ p, p ∈ L → s.bufs p = none ∧ p < s.next
  keep : ∀ p, p ∈ L → t.bufs p = g p

def RFr {α : Type _} (g : Nat → Option (List K)) (L : List Nat) : Res K α → Res K α → Prop
  | .ok a s f, .ok b t f' => a = b ∧ f = f' ∧ Fr g L s t
  | .threw s, .threw t => Fr g L s t
  | .ub, _ => True
  | .abort, .abort => True
  | _, _ => False

def Framed {α : Type _} (m : Th K α) : Prop :=
  ∀ g L s t f, Fr g L s t → RFr g L (m s f) (m t f)

theorem framed_ret {α : Type _} (a : α) : Framed (ret a : Th K α) := by
  intro g L s t f h; exact ⟨rfl, rfl, h⟩

theorem framed_bind {α β : Type _} {m : Th K α} {k : α → Th K β} (hm : Framed m)
    (hk : ∀ a, Framed (k a)) : Framed (m.bind k) := by
  intro g L s t f h
  have := hm g L s t f h
  unfold Th.bind
  revert this
  cases m s f <;> cases m t f <;> intro h' <;> simp only [RFr] at h' ⊢
  all_goals first | exact h' | skip
  obtain ⟨e1, e2, e3⟩ := h'
  subst e1; subst e2
  exact hk _ g L _ _ _ e3

theorem framed_tick : Framed (tick : Th K Unit) := by
  intro g L s t f h
  rcases f with _ | _ | k <;> simp [tick, RFr, h]

theorem framed_onThrow {α : Type _} {m : Th K α} (hm : Framed m) (p : Option Nat) :
    Framed (onThrow m (fun s => s.free p)) := by
  intro g L s t f h
  have := hm g L s t f h
  unfold onThrow
  revert this
  cases m s f <;> cases m t f <;> intro h' <;> simp only [RFr] at h' ⊢
  all_goals first | exact h' | skip
  rename_i s' t'
  cases p with
  | none => exact h'
  | some p =>
    simp only [St.free]
    cases hs : s'.bufs p with
    | none => trivial
    | some l =>
      have hp : p ∉ L := fun hc => by rw [(h'.dead p hc).1] at hs; cases hs
      rw [h'.bufs p hp, hs]
      refine ⟨h'.objs, h'.next, ?_, ?_, ?_⟩
      · intro q hq; by_cases e : q = p
        · subst e; simp
        · simp [upd_ne _ _ _ _ e, h'.bufs q hq]
      · intro q hq; have e : q ≠ p := fun e => hp (e ▸ hq)
        simpa [upd_ne _ _ _ _ e] using h'.dead q hq
      · intro q hq; have e : q ≠ p := fun e => hp (e ▸ hq)
        simpa [upd_ne _ _ _ _ e] using h'.keep q hq

theorem framed_obj (x : Nat) : Framed (Th.obj x : Th K Obj) := by
  intro g L s t f h
  unfold Th.obj
  rw [h.objs]
  cases s.objs x with
  | none => trivial
  | some o => exact ⟨rfl, rfl, h⟩

theorem framed_setObj (x : Nat) (o : Option Obj) : Framed (Th.setObj x o : Th K Unit) := by
  intro g L s t f h
  exact ⟨rfl, rfl, ⟨by simp [St.setObj, h.objs], h.next, h.bufs, h.dead, h.keep⟩⟩

theorem framed_newArr (d : K) (n : Nat) : Framed (newArr d n) := by
  refine framed_bind framed_tick fun _ => ?_
  intro g L s t f h
  refine ⟨h.next.symm, rfl, ⟨h.objs, by simp [St.alloc, h.next], ?_, ?_, ?_⟩⟩
  · intro p hp
    simp only [St.alloc, h.next]
    by_cases e : p = s.next
    · subst e; simp
    · simp [upd_ne _ _ _ _ e, h.bufs p hp]
  · intro p hp
    have := h.dead p hp
    have e : p ≠ s.next := by omega
    simp only [St.alloc, upd_ne _ _ _ _ e]
    exact ⟨this.1, by omega⟩
  · intro p hp
    have := h.dead p hp
    have e : p ≠ t.next := by rw [h.next]; omega
    simp only [St.alloc, upd_ne _ _ _ _ e]
    exact h.keep p hp

theorem framed_rd (p : Option Nat) (i : Nat) : Framed (rd p i : Th K K) := by
  intro g L s t f h
  unfold rd
  cases p with
  | none => trivial
  | some p =>
    simp only [Option.bind_some]
    cases hs : s.bufs p with
    | none => trivial
    | some l =>
      have hp : p ∉ L := fun hc => by rw [(h.dead p hc).1] at hs; cases hs
      rw [h.bufs p hp, hs]
      cases hl : l[i]? with
      | none => simp only [hl]; trivial
      | some v => simp only [hl]; exact ⟨rfl, rfl, h⟩

theorem framed_wr (p : Option Nat) (i : Nat) (v : K) : Framed (wr p i v) := by
  refine framed_bind (framed_rd p i) fun _ => framed_bind framed_tick fun _ => ?_
  intro g L s t f h
  cases p with
  | none => trivial
  | some p =>
    dsimp only
    cases hs : s.bufs p with
    | none => trivial
    | some l =>
      have hp : p ∉ L := fun hc => by rw [(h.dead p hc).1] at hs; cases hs
      rw [h.bufs p hp, hs]
      refine ⟨rfl, rfl, ⟨h.objs, h.next, ?_, ?_, ?_⟩⟩
      · intro q hq; by_cases e : q = p
        · subst e; simp
        · simp [upd_ne _ _ _ _ e, h.bufs q hq]
      · intro q hq; have e : q ≠ p := fun e => hp (e ▸ hq)
        simpa [upd_ne _ _ _ _ e] using h.dead q hq
      · intro q hq; have e : q ≠ p := fun e => hp (e ▸ hq)
        simpa [upd_ne _ _ _ _ e] using h.keep q hq

theorem framed_del (p : Option Nat) : Framed (del p : Th K Unit) := by
  intro g L s t f h
  unfold del
  cases p with
  | none => exact ⟨rfl, rfl, h⟩
  | some p =>
    simp only [St.free]
    cases hs : s.bufs p with
    | none => trivial
    | some l =>
      have hp : p ∉ L := fun hc => by rw [(h.dead p hc).1] at hs; cases hs
      rw [h.bufs p hp, hs]
      refine ⟨rfl, rfl, ⟨h.objs, h.next, ?_, ?_, ?_⟩⟩
      · intro q hq; by_cases e : q = p
        · subst e; simp
        · simp [upd_ne _ _ _ _ e, h.bufs q hq]
      · intro q hq; have e : q ≠ p := fun e => hp (e ▸ hq)
        simpa [upd_ne _ _ _ _ e] using h.dead q hq
      · intro q hq; have e : q ≠ p := fun e => hp (e ▸ hq)
        simpa [upd_ne _ _ _ _ e] using h.keep q hq

theorem framed_loop (n : Nat) (body : Nat → Th K Unit) (h : ∀ i, Framed (body i)) :
    Framed (loop n body) := by
  induction n with
  | zero => exact framed_ret ()
  | succ n ih => exact framed_bind ih fun _ => h n

theorem framed_sizeTest (a b : Nat) : Framed (sizeTest a b : Th K Unit) := by
  intro g L s t f h
  unfold sizeTest
  split
  · exact ⟨rfl, rfl, h⟩
  · trivial

theorem framed_copyLoop (p q : Option Nat) (n : Nat) : Framed (copyLoop p q n : Th K Unit) :=
  framed_loop _ _ fun i => framed_bind (framed_rd q i) fun v => framed_wr p i v

theorem framed_fillLoop (p : Option Nat) (l : List K) (n : Nat) : Framed (fillLoop p l n) := by
  refine framed_loop _ _ fun i => ?_
  cases l[i]? with
  | none => intro g L s t f h; trivial
  | some v => exact framed_wr p i v

theorem framed_copyT (d : K) (x y : Nat) : Framed (copyT d x y) :=
  framed_bind (framed_obj y) fun o => framed_bind (framed_newArr d _) fun p =>
    framed_bind (framed_copyLoop _ _ _) fun _ => framed_setObj _ _

theorem framed_assignT (x y : Nat) : Framed (assignT x y : Th K Unit) :=
  framed_bind (framed_obj x) fun _ => framed_bind (framed_obj y) fun _ =>
    framed_bind (framed_sizeTest _ _) fun _ => framed_copyLoop _ _ _

theorem framed_stepT (d : K) (op : TOp K) : Framed (stepT d op) := by
  cases op with
  | construct x k n =>
    exact framed_bind (framed_newArr d n) fun p => framed_setObj _ _
  | fillCtor x k l =>
    exact framed_bind (framed_newArr d _) fun p =>
      framed_bind (framed_onThrow (framed_fillLoop _ _ _) _) fun _ => framed_setObj _ _
  | convCtor x k n y =>
    exact framed_bind (framed_obj y) fun o => framed_bind (framed_newArr d _) fun p =>
      framed_bind (framed_onThrow (framed_bind (framed_sizeTest _ _) fun _ =>
        framed_copyLoop _ _ _) _) fun _ => framed_setObj _ _
  | copy x y => exact framed_copyT d x y
  | move x y =>
    refine framed_bind (framed_obj y) fun o => ?_
    cases o.kind
    · exact framed_bind (framed_setObj _ _) fun _ => framed_setObj _ _
    · exact framed_copyT d x y
    · exact framed_copyT d x y
  | assign x y => exact framed_assignT x y
  | fill x l =>
    exact framed_bind (framed_obj x) fun _ => framed_bind (framed_sizeTest _ _) fun _ =>
      framed_fillLoop _ _ _
  | swap x y =>
    have hl : ∀ ox oy : Obj, Framed (loop ox.size fun i => swapElem ox.ptr oy.ptr i : Th K Unit) :=
      fun ox oy => framed_loop _ _ fun i => framed_bind (framed_rd _ _) fun _ =>
        framed_bind framed_tick fun _ => framed_bind (framed_rd _ _) fun _ =>
        framed_bind (framed_wr _ _ _) fun _ => framed_wr _ _ _
    refine framed_bind (framed_obj x) fun ox => framed_bind (framed_obj y) fun oy =>
      framed_bind (framed_sizeTest _ _) fun _ => ?_
    cases ox.kind
    · exact framed_bind (framed_setObj _ _) fun _ => framed_setObj _ _
    · exact hl ox oy
    · exact hl ox oy
  | swapMat x y =>
    exact framed_bind (framed_obj x) fun ox => framed_bind (framed_newArr d _) fun t =>
      framed_bind (framed_copyLoop _ _ _) fun _ =>
      framed_bind (framed_onThrow (framed_bind (framed_assignT x y) fun _ =>
        framed_bind (framed_obj y) fun oy => framed_bind (framed_sizeTest _ _) fun _ =>
          framed_copyLoop _ _ _) _) fun _ => framed_del _
  | write x i v => exact framed_bind (framed_obj x) fun o => framed_wr _ _ _
  | destroy x =>
    exact framed_bind (framed_obj x) fun o => framed_bind (framed_del _) fun _ => framed_setObj _ _

/-! ### Running a loop down to its fuse -/

/-- `c` actions that take the state through `S 0, S 1, …, S c`. -/
def fate (f : Option Nat) (c : Nat) (S : Nat → St K) : Res K Unit :=
  match f with
  | none => .ok () (S c) none
  | some k => if k < c then .threw (S k) else .ok () (S c) (some (k - c))

theorem loop_run (m c : Nat) (S : Nat → St K) (body : Nat → Th K Unit)
    (h : ∀ i, i < m → ∀ f, body i (S (c*i)) f = fate f c (fun j => S (c*i+j))) (f : Option Nat) :
    loop m body (S 0) f = fate f (c*m) S := by
  induction m with
  | zero => cases f <;> simp [loop, ret, fate]
  | succ m ih =>
    have := ih fun i hi => h i (by omega)
    simp only [loop, Th.bind, this]
    cases f with
    | none =>
      simp only [fate]
      rw [h m (by omega)]
      simp only [fate]; rfl
    | some k =>
      simp only [fate]
      by_cases hk : k < c*m
      · rw [if_pos hk, if_pos (by rw [Nat.mul_succ]; omega)]
      · rw [if_neg hk]
        dsimp only
        rw [h m (by omega)]
        simp only [fate, Nat.mul_succ]
        by_cases hk' : k < c*m + c
        · rw [if_pos hk', if_pos (by omega)]
          congr 2; omega
        · rw [if_neg hk', if_neg (by omega)]
          congr 2; omega

def setb (s : St K) (p : Nat) (l : List K) : St K := { s with bufs := upd s.bufs p (some l) }

theorem setb_setb (s : St K) (p : Nat) (l l' : List K) : setb (setb s p l) p l' = setb s p l' := by
  unfold setb
  congr 1
  funext q; by_cases e : q = p
  · subst e; simp
  · simp [upd_ne _ _ _ _ e]

theorem setb_same (s : St K) (p : Nat) (l : List K) (h : s.bufs p = some l) : setb s p l = s := by
  unfold setb
  have : upd s.bufs p (some l) = s.bufs := by
    funext q; by_cases e : q = p
    · subst e; simp [h]
    · simp [upd_ne _ _ _ _ e]
  rw [this]

theorem setb_comm (s : St K) (p q : Nat) (l l' : List K) (h : p ≠ q) :
    setb (setb s p l) q l' = setb (setb s q l') p l := by
  unfold setb
  congr 1
  funext r
  simp only [upd]
  by_cases e : r = q
  · subst e; simp [Ne.symm h]
  · simp [e]

theorem take_drop_set (l l0 : List K) (i : Nat) (hi : i < l.length) (h0 : l.length = l0.length) :
    (l.take i ++ l0.drop i).set i l[i] = l.take (i+1) ++ l0.drop (i+1) := by
  have : (l.take i).length = i := by simp; omega
  rw [List.set_append_right _ _ (by omega), this, Nat.sub_self,
    List.drop_eq_getElem_cons (by omega : i < l0.length), List.set_cons_zero,
    List.take_succ_eq_append_getElem hi, List.append_assoc]
  rfl

theorem take_drop_get (l l0 : List K) (i : Nat) (hi : i < l.length) (h0 : l.length = l0.length) :
    (l.take i ++ l0.drop i)[i]? = some (l0[i]'(by omega)) := by
  have : (l.take i).length = i := by simp; omega
  rw [List.getElem?_append_right (by omega), this, Nat.sub_self, List.getElem?_drop]
  simp [h0 ▸ hi]

theorem wr_run (s : St K) (p i : Nat) (l : List K) (v : K) (f : Option Nat) (hp : s.bufs p = some l)
    (hi : i < l.length) :
    wr (some p) i v s f = fate f 1 (fun j => if j = 0 then s else setb s p (l.set i v)) := by
  have h1 : l[i]? = some l[i] := by simp [hi]
  rcases f with _ | _ | k <;>
    simp [wr, rd, Th.bind, hp, h1, tick, fate, setb]

/-- State while elements of `l` are being put into array `p` holding `l0`. -/
def mid (s : St K) (p : Nat) (l l0 : List K) (k : Nat) : St K := setb s p (l.take k ++ l0.drop k)

theorem mid_zero (s : St K) (p : Nat) (l l0 : List K) (h : s.bufs p = some l0) : mid s p l l0 0 = s := by
  simp [mid, setb_same s p l0 h]

theorem fillLoop_run (s : St K) (p : Nat) (l l0 : List K) (hp : s.bufs p = some l0)
    (hl : l.length = l0.length) (f : Option Nat) :
    fillLoop (some p) l l.length s f = fate f l.length (mid s p l l0) := by
  have := loop_run l.length 1 (mid s p l l0) (fun i => match l[i]? with
    | none => fun _ _ => .ub
    | some v => wr (some p) i v) (by
      intro i hi f
      have h1 : l[i]? = some l[i] := by simp [hi]
      simp only [h1, one_mul]
      rw [wr_run (mid s p l l0 i) p i (l.take i ++ l0.drop i) l[i] f (by simp [mid, setb])
        (by simp; omega)]
      have e : setb (mid s p l l0 i) p ((l.take i ++ l0.drop i).set i l[i]) = mid s p l l0 (i+1) := by
        rw [take_drop_set l l0 i hi hl]; simp [mid, setb_setb]
      rw [e]
      rcases f with _ | _ | k <;> simp [fate]) f
  rw [mid_zero s p l l0 hp, one_mul] at this
  exact this

theorem copyLoop_run (s : St K) (p q : Nat) (l l0 : List K) (hp : s.bufs p = some l0)
    (hq : s.bufs q = some l) (hl : l.length = l0.length) (f : Option Nat) :
    copyLoop (some p) (some q) l.length s f = fate f l.length (mid s p l l0) := by
  have := loop_run l.length 1 (mid s p l l0) (fun i => (rd (some q) i).bind fun v => wr (some p) i v) (by
      intro i hi f
      have h1 : rd (some q) i (mid s p l l0 i) f = .ok l[i] (mid s p l l0 i) f := by
        by_cases e : q = p
        · subst e
          rw [hp] at hq; cases hq
          simp only [rd, mid, setb, Option.bind_some, upd_self]
          rw [take_drop_get l l i hi rfl]
        · simp [rd, mid, setb, upd_ne _ _ _ _ e, hq, hi]
      simp only [one_mul, Th.bind, h1]
      rw [wr_run (mid s p l l0 i) p i (l.take i ++ l0.drop i) l[i] f (by simp [mid, setb])
        (by simp; omega)]
      have e : setb (mid s p l l0 i) p ((l.take i ++ l0.drop i).set i l[i]) = mid s p l l0 (i+1) := by
        rw [take_drop_set l l0 i hi hl]; simp [mid, setb_setb]
      rw [e]
      rcases f with _ | _ | k <;> simp [fate]) f
  rw [mid_zero s p l l0 hp, one_mul] at this
  exact this

theorem mid_full (s : St K) (p : Nat) (l l0 : List K) (h : l.length = l0.length) :
    mid s p l l0 l.length = setb s p l := by
  unfold mid
  rw [List.take_length, List.drop_eq_nil_of_le (by omega), List.append_nil]

/-! ### One operation -/

/-- All live arrays are owned, except those in `L`. -/
def InvL (L : List Nat) (t : St K) : Prop :=
  L.Nodup ∧ (∀ p, p ∈ L → t.bufs p ≠ none) ∧ ∃ s, Inv s ∧ Fr t.bufs L s t

theorem invL_of_inv (s : St K) (h : Inv s) : InvL [] s :=
  ⟨List.nodup_nil, by simp, s, h, ⟨rfl, rfl, fun _ _ => rfl, by simp, by simp⟩⟩

theorem abs_fr {g : Nat → Option (List K)} {L : List Nat} {s t : St K} (h : Inv s) (hf : Fr g L s t) :
    t.abs = s.abs := by
  funext x
  simp only [St.abs, hf.objs]
  cases ho : s.objs x with
  | none => rfl
  | some o =>
    simp only [Option.map_some, Option.some.injEq, AObj.mk.injEq, true_and]
    cases hp : o.ptr with
    | none => rfl
    | some p =>
      obtain ⟨l, h1, _⟩ := h.owned _ _ _ ho hp
      have : p ∉ L := fun hc => by rw [(hf.dead p hc).1] at h1; cases h1
      simpa using hf.bufs p this

/-- What is to be shown of one operation. -/
def Meets (r : Res K Unit) : Option (ASt K × Bool × Nat) → Prop
  | none => r = .abort
  | some (a, thr, n) => ∃ s' L, L.length = n ∧ InvL L s' ∧ s'.abs = a ∧
      (if thr then r = .threw s' else ∃ f', r = .ok () s' f')

theorem meets_ok {r : Res K Unit} {a : ASt K} (s' : St K) (f' : Option Nat) (h : Inv s') (ha : s'.abs = a)
    (hr : r = .ok () s' f') : Meets r (some (a, false, 0)) :=
  ⟨s', [], rfl, invL_of_inv s' h, ha, f', hr⟩

theorem meets_threw {r : Res K Unit} {a : ASt K} (s' : St K) (h : Inv s') (ha : s'.abs = a)
    (hr : r = .threw s') : Meets r (some (a, true, 0)) :=
  ⟨s', [], rfl, invL_of_inv s' h, ha, hr⟩

theorem next_dead (s : St K) (h : Inv s) : s.bufs s.next = none := by
  by_contra hc
  obtain ⟨l', hl⟩ := Option.ne_none_iff_exists'.1 hc
  have := h.fresh _ _ hl; omega

def bump (s : St K) : St K := { s with next := s.next + 1 }

theorem inv_bump (s : St K) (h : Inv s) : Inv (bump s) :=
  ⟨h.owned, h.distinct, h.noLeak, fun p l hp => Nat.lt_succ_of_lt (h.fresh p l hp)⟩

theorem setb_alloc (s : St K) (l l' : List K) : setb (s.alloc l).2 s.next l' = (s.alloc l').2 := by
  unfold setb St.alloc
  congr 1
  funext q; by_cases e : q = s.next
  · subst e; simp
  · simp [upd_ne _ _ _ _ e]

theorem free_alloc (s : St K) (h : Inv s) (l : List K) :
    ((s.alloc l).2).free (some s.next) = .ok (bump s) := by
  have hn := next_dead s h
  simp only [St.free, St.alloc, upd_self, bump]
  congr 2
  funext q; by_cases e : q = s.next
  · subst e; simp [hn]
  · simp [upd_ne _ _ _ _ e]

theorem leak_alloc (s : St K) (h : Inv s) (l : List K) : InvL [s.next] (s.alloc l).2 := by
  have hn := next_dead s h
  refine ⟨by simp, by simp [St.alloc], bump s, inv_bump s h, ⟨rfl, rfl, ?_, ?_, fun _ _ => rfl⟩⟩
  · intro p hp
    simp only [List.mem_singleton] at hp
    simp [St.alloc, bump, upd_ne _ _ _ _ hp]
  · intro p hp
    simp only [List.mem_singleton] at hp
    subst hp
    exact ⟨hn, by simp [bump]⟩

theorem leak_abs (s : St K) (h : Inv s) (l : List K) : ((s.alloc l).2).abs = s.abs := by
  obtain ⟨_, _, s0, h0, h1⟩ := leak_alloc s h l
  have hn := next_dead s h
  have : Fr (s.alloc l).2.bufs [s.next] (bump s) (s.alloc l).2 := by
    refine ⟨rfl, rfl, ?_, ?_, fun _ _ => rfl⟩
    · intro p hp
      simp only [List.mem_singleton] at hp
      simp [St.alloc, bump, upd_ne _ _ _ _ hp]
    · intro p hp
      simp only [List.mem_singleton] at hp
      subst hp
      exact ⟨hn, by simp [bump]⟩
  exact (abs_fr (inv_bump s h) this).trans rfl

theorem newArr_run (d : K) (n : Nat) (s : St K) (f : Option Nat) :
    newArr d n s f = match f with
      | some 0 => .threw s
      | some (k+1) => .ok s.next (s.alloc (List.replicate n d)).2 (some k)
      | none => .ok s.next (s.alloc (List.replicate n d)).2 none := by
  rcases f with _ | _ | k <;> rfl

theorem mid_alloc (s : St K) (l l0 : List K) (k : Nat) :
    mid (s.alloc l0).2 s.next l l0 k = (s.alloc (l.take k ++ l0.drop k)).2 := setb_alloc s _ _

theorem alloc_next (s : St K) (l : List K) : (s.alloc l).2.bufs s.next = some l := by simp [St.alloc]

/-- A live object with contents. -/
theorem get_obj (s : St K) (h : Inv s) (x : Nat) (hx : ∃ o l, s.abs x = some o ∧ o.val = some l) :
    ∃ k p n l, s.objs x = some ⟨k, some p, n⟩ ∧ s.bufs p = some l ∧ l.length = n ∧
      s.abs x = some ⟨k, n, some l⟩ := by
  obtain ⟨o, l, h1, h2⟩ := hx
  obtain ⟨p, h3, h4, h5⟩ := abs_some s h x o l h1 h2
  refine ⟨o.kind, p, o.size, l, h3, h4, h5, ?_⟩
  rw [h1]; cases o; simp_all

theorem setVal_abs (s : St K) (h : Inv s) (x p n : Nat) (k : Kind) (l : List K)
    (hx : s.objs x = some ⟨k, some p, n⟩) : (setb s p l).abs = setVal s.abs x l := by
  have := abs_setbuf s h x _ p l hx rfl
  simp only [setb]
  rw [this]
  simp [setVal, St.abs, hx]

theorem full_alloc (s : St K) (d : K) (l : List K) :
    mid (s.alloc (List.replicate l.length d)).2 s.next l (List.replicate l.length d) l.length =
      (s.alloc l).2 := by
  rw [mid_full _ _ _ _ (by simp), setb_alloc]

theorem fate_cases {P : Res K Unit → Prop} (f : Option Nat) (c : Nat) (S : Nat → St K)
    (h1 : ∀ f', P (.ok () (S c) f')) (h2 : ∀ k, k < c → P (.threw (S k))) : P (fate f c S) := by
  unfold fate
  cases f with
  | none => exact h1 _
  | some k => dsimp only; split
              · exact h2 k ‹_›
              · exact h1 _

/-- Constructors whose base is complete when the elements are copied. -/
theorem ctor_clean (s : St K) (h : Inv s) (x : Nat) (hx : s.objs x = none) (d : K) (k : Kind) (l : List K)
    (body : Nat → Th K Unit) (f : Option Nat)
    (hb : ∀ f, body s.next (s.alloc (List.replicate l.length d)).2 f =
      fate f l.length (mid (s.alloc (List.replicate l.length d)).2 s.next l (List.replicate l.length d))) :
    Meets (((newArr d l.length).bind fun p => (onThrow (body p) (fun s => s.free (some p))).bind fun _ =>
      Th.setObj x (some ⟨k, some p, l.length⟩)) s f)
      (match f.bind (fun k => if k < 1 + l.length then some k else none) with
        | some _ => some (s.abs, true, 0)
        | none => some (upd s.abs x (some ⟨k, l.length, some l⟩), false, 0)) := by
  rcases f with _ | _ | j
  · refine meets_ok _ none (inv_new s h x hx k l) (abs_new s h x k l) ?_
    simp only [Th.bind, newArr_run, onThrow, hb, fate, full_alloc]
    rfl
  · have : (some 0).bind (fun k => if k < 1 + l.length then some k else none) = some 0 := by simp
    rw [this]
    refine meets_threw s h rfl ?_
    · simp [Th.bind, newArr_run]
  · by_cases hj : j < l.length
    · have : (some (j+1)).bind (fun k => if k < 1 + l.length then some k else none) = some (j+1) := by
        simp; omega
      rw [this]
      refine meets_threw (bump s) (inv_bump s h) rfl ?_
      simp only [Th.bind, newArr_run, onThrow, hb, fate, if_pos hj, mid_alloc, free_alloc s h]
    · have : (some (j+1)).bind (fun k => if k < 1 + l.length then some k else none) = none := by
        simp; omega
      rw [this]
      refine meets_ok _ (some (j - l.length)) (inv_new s h x hx k l) (abs_new s h x k l) ?_
      simp only [Th.bind, newArr_run, onThrow, hb, fate, if_neg hj, full_alloc]
      rfl

theorem copyT_meets (s : St K) (h : Inv s) (x y : Nat) (d : K) (f : Option Nat) (hx : s.objs x = none)
    (k : Kind) (p : Nat) (l : List K) (ho : s.objs y = some ⟨k, some p, l.length⟩) (hp : s.bufs p = some l) :
    Meets (copyT d x y s f)
      (match f.bind (fun k => if k < 1 + l.length then some k else none) with
        | some j => some (s.abs, true, if j = 0 then 0 else 1)
        | none => some (upd s.abs x (some ⟨k, l.length, some l⟩), false, 0)) := by
  have hn := next_dead s h
  have hpn : p ≠ s.next := fun e => by rw [e, hn] at hp; cases hp
  have hb : ∀ f, copyLoop (some s.next) (some p) l.length (s.alloc (List.replicate l.length d)).2 f =
      fate f l.length (mid (s.alloc (List.replicate l.length d)).2 s.next l (List.replicate l.length d)) :=
    fun f => copyLoop_run _ _ _ _ _ (alloc_next _ _)
      (by simp [St.alloc, upd_ne _ _ _ _ hpn, hp]) (by simp) f
  have h0 : ∀ f, (Th.obj y : Th K Obj) s f = .ok ⟨k, some p, l.length⟩ s f := fun f => by
    simp [Th.obj, ho]
  rcases f with _ | _ | j
  · refine meets_ok _ none (inv_new s h x hx k l) (abs_new s h x k l) ?_
    simp only [copyT, Th.bind, h0, newArr_run, hb, fate, full_alloc]
    rfl
  · have : (some 0).bind (fun k => if k < 1 + l.length then some k else none) = some 0 := by simp
    rw [this]
    refine meets_threw s h rfl ?_
    · simp [copyT, Th.bind, h0, newArr_run]
  · by_cases hj : j < l.length
    · have : (some (j+1)).bind (fun k => if k < 1 + l.length then some k else none) = some (j+1) := by
        simp; omega
      rw [this]
      refine ⟨_, [s.next], by simp, leak_alloc s h (l.take j ++ (List.replicate l.length d).drop j),
        leak_abs s h _, ?_⟩
      simp only [copyT, Th.bind, h0, newArr_run, hb, fate, if_pos hj, mid_alloc, if_true]
    · have : (some (j+1)).bind (fun k => if k < 1 + l.length then some k else none) = none := by
        simp; omega
      rw [this]
      refine meets_ok _ (some (j - l.length)) (inv_new s h x hx k l) (abs_new s h x k l) ?_
      simp only [copyT, Th.bind, h0, newArr_run, hb, fate, if_neg hj, full_alloc]
      rfl

theorem isDyn_some (a : ASt K) (x n : Nat) (k : Kind) (v : Option (List K)) (h : a x = some ⟨k, n, v⟩) :
    isDyn a x = (k == .dynVec) := by simp [isDyn, h]
theorem sz_some (a : ASt K) (x n : Nat) (k : Kind) (v : Option (List K)) (h : a x = some ⟨k, n, v⟩) :
    sz a x = n := by simp [sz, h]
theorem vals_some (a : ASt K) (x n : Nat) (k : Kind) (l : List K) (h : a x = some ⟨k, n, some l⟩) :
    vals a x = l := by simp [vals, h]

theorem inv_setb (s : St K) (h : Inv s) (x p n : Nat) (k : Kind) (l : List K)
    (hx : s.objs x = some ⟨k, some p, n⟩) (hl : l.length = n) : Inv (setb s p l) :=
  inv_setbuf s h x _ p l hx rfl hl

/-- Assignments: `c` element steps, each keeping the array of `x` at its size. -/
theorem assign_meets (s : St K) (h : Inv s) (x p : Nat) (k : Kind) (l l0 : List K)
    (hx : s.objs x = some ⟨k, some p, l0.length⟩) (hl : l.length = l0.length) (r : Res K Unit)
    (f : Option Nat) (hr : r = fate f l.length (mid s p l l0)) :
    Meets r (match f.bind (fun k => if k < l.length then some k else none) with
        | some j => some (setVal s.abs x (l.take j ++ l0.drop j), true, 0)
        | none => some (setVal s.abs x l, false, 0)) := by
  have key : ∀ j, Inv (mid s p l l0 j) ∧ (mid s p l l0 j).abs = setVal s.abs x (l.take j ++ l0.drop j) :=
    fun j => ⟨inv_setb s h x p _ k _ hx (by simp; omega), setVal_abs s h x p _ k _ hx⟩
  have fullv : l.take l.length ++ l0.drop l.length = l := by simp [hl]
  subst hr
  cases f with
  | none =>
    refine meets_ok _ none (key l.length).1 ?_ rfl
    rw [(key l.length).2, fullv]
  | some j =>
    by_cases hj : j < l.length
    · have : (some j).bind (fun k => if k < l.length then some k else none) = some j := by simp [hj]
      rw [this]
      exact meets_threw _ (key j).1 (key j).2 (by simp [fate, hj])
    · have : (some j).bind (fun k => if k < l.length then some k else none) = none := by simp; omega
      rw [this]
      refine meets_ok _ (some (j - l.length)) (key l.length).1 ?_ (by simp [fate, hj])
      rw [(key l.length).2, fullv]

/-- State while two arrays are swapped element by element. -/
def smid (s : St K) (p q : Nat) (lx ly : List K) (i j : Nat) : St K :=
  setb (setb s p (ly.take i ++ lx.drop i)) q (lx.take j ++ ly.drop j)

theorem smid_inv (s : St K) (h : Inv s) (x y p q : Nat) (k k' : Kind) (lx ly : List K)
    (hx : s.objs x = some ⟨k, some p, lx.length⟩) (hy : s.objs y = some ⟨k', some q, ly.length⟩)
    (hl : lx.length = ly.length) (i j : Nat) :
    Inv (smid s p q lx ly i j) ∧ (smid s p q lx ly i j).abs =
      setVal (setVal s.abs x (ly.take i ++ lx.drop i)) y (lx.take j ++ ly.drop j) := by
  have h1 := inv_setb s h x p _ k (ly.take i ++ lx.drop i) hx (by simp; omega)
  refine ⟨inv_setb _ h1 y q _ k' _ hy (by simp; omega), ?_⟩
  rw [smid, setVal_abs _ h1 y q _ k' _ hy, setVal_abs s h x p _ k _ hx]

theorem smid_same (s : St K) (p : Nat) (l : List K) (hp : s.bufs p = some l) (i j : Nat) :
    smid s p p l l i j = s := by
  simp [smid, List.take_append_drop, setb_same s p l hp]

theorem rd_run (s : St K) (p i : Nat) (l : List K) (v : K) (hp : s.bufs p = some l) (hv : l[i]? = some v)
    (f : Option Nat) : rd (some p) i s f = .ok v s f := by
  simp [rd, hp, hv]

theorem swapElem_run (s : St K) (p q : Nat) (lx ly : List K) (hpq : p ≠ q) (hp : s.bufs p = some lx)
    (hq : s.bufs q = some ly) (hl : lx.length = ly.length) (i : Nat) (hi : i < lx.length) (f : Option Nat) :
    swapElem (some p) (some q) i (smid s p q lx ly i i) f =
      fate f 3 (fun j => smid s p q lx ly (i + (j+1)/3) (i + j/3)) := by
  have hi' : i < ly.length := by omega
  have b1 : (smid s p q lx ly i i).bufs p = some (ly.take i ++ lx.drop i) := by
    simp [smid, setb, upd_ne _ _ _ _ hpq]
  have b2 : ∀ i, (smid s p q lx ly i i).bufs q = some (lx.take i ++ ly.drop i) := by
    simp [smid, setb]
  have b3 : (smid s p q lx ly (i+1) i).bufs q = some (lx.take i ++ ly.drop i) := by
    simp [smid, setb]
  have r1 := fun f => rd_run _ p i _ _ b1 (take_drop_get ly lx i hi' hl.symm) f
  have r2 := fun f => rd_run _ q i _ _ (b2 i) (take_drop_get lx ly i hi hl) f
  have w1 := fun f => wr_run _ p i _ ly[i] f b1 (by simp; omega)
  have e1 : setb (smid s p q lx ly i i) p ((ly.take i ++ lx.drop i).set i ly[i]) =
      smid s p q lx ly (i+1) i := by
    rw [take_drop_set ly lx i hi' hl.symm]
    simp only [smid]
    rw [setb_comm _ q p _ _ (Ne.symm hpq), setb_setb]
    
  have w2 := fun f => wr_run _ q i _ lx[i] f b3 (by simp; omega)
  have e2 : setb (smid s p q lx ly (i+1) i) q ((lx.take i ++ ly.drop i).set i lx[i]) =
      smid s p q lx ly (i+1) (i+1) := by
    rw [take_drop_set lx ly i hi hl]
    simp [smid, setb_setb]
  rw [e1] at w1
  rw [e2] at w2
  rcases f with _ | _ | _ | _ | k <;>
    simp [swapElem, Th.bind, r1, tick, r2, w1, w2, fate]

theorem swapElem_same (s : St K) (p : Nat) (l : List K) (hp : s.bufs p = some l) (i : Nat)
    (hi : i < l.length) (f : Option Nat) :
    swapElem (some p) (some p) i s f = fate f 3 (fun _ => s) := by
  have r1 := fun f => rd_run s p i l l[i] hp (by simp [hi]) f
  have w1 := fun f => wr_run s p i l l[i] f hp hi
  have e : setb s p (l.set i l[i]) = s := by
    rw [List.set_getElem_self]; exact setb_same s p l hp
  rw [e] at w1
  simp only [ite_self] at w1
  rcases f with _ | _ | _ | _ | k <;>
    simp [swapElem, Th.bind, r1, tick, w1, fate]

theorem swapLoop_run (s : St K) (p q : Nat) (lx ly : List K) (hp : s.bufs p = some lx)
    (hq : s.bufs q = some ly) (hl : lx.length = ly.length) (f : Option Nat) :
    loop lx.length (fun i => swapElem (some p) (some q) i) s f =
      fate f (3 * lx.length) (fun k => smid s p q lx ly ((k+1)/3) (k/3)) := by
  by_cases hpq : p = q
  · subst hpq
    rw [hp] at hq; cases hq
    have := loop_run lx.length 3 (fun _ => s) (fun i => swapElem (some p) (some p) i)
      (fun i hi f => swapElem_same s p lx hp i hi f) f
    simp only [smid_same s p lx hp]
    exact this
  · have := loop_run lx.length 3 (fun k => smid s p q lx ly ((k+1)/3) (k/3))
      (fun i => swapElem (some p) (some q) i) (by
        intro i hi f
        have e1 : (3*i+1)/3 = i := by omega
        have e2 : (3*i)/3 = i := by omega
        simp only [e1, e2]
        rw [swapElem_run s p q lx ly hpq hp hq hl i hi f]
        congr 1
        funext j
        congr 1 <;> omega) f
    rw [← this]
    congr 1
    simp [smid, setb_same s p lx hp, setb_same s q ly hq]

theorem obj_run (s : St K) (x : Nat) (o : Obj) (h : s.objs x = some o) (f : Option Nat) :
    (Th.obj x : Th K Obj) s f = .ok o s f := by simp [Th.obj, h]

theorem specT_of (d : K) (a : ASt K) (op : TOp K) (f : Option Nat) (h : mismatch a f op = false) :
    specT d a op f = match f.bind (fun k => if k < actions a op then some k else none) with
      | some k => some (thrownT a k op, true, lostT a k op)
      | none => some (doneT d a op, false, 0) := by
  simp only [specT, h, throws]; rfl

theorem fate_meets (s0 : St K) (r : Res K Unit) (f : Option Nat) (c : Nat) (S : Nat → St K)
    (T : Nat → ASt K) (A : ASt K)
    (hr : r = fate f c S) (h1 : ∀ j, j ≤ c → Inv (S j) ∧ (S j).abs = T j) (hA : T c = A) :
    Meets r (match f.bind (fun k => if k < c then some k else none) with
        | some j => some (T j, true, 0)
        | none => some (A, false, 0)) := by
  subst hr; subst hA
  cases f with
  | none => exact meets_ok _ none (h1 c le_rfl).1 (h1 c le_rfl).2 rfl
  | some j =>
    by_cases hj : j < c
    · have : (some j).bind (fun k => if k < c then some k else none) = some j := by simp [hj]
      rw [this]
      exact meets_threw _ (h1 j hj.le).1 (h1 j hj.le).2 (by simp [fate, hj])
    · have : (some j).bind (fun k => if k < c then some k else none) = none := by simp; omega
      rw [this]
      exact meets_ok _ (some (j - c)) (h1 c le_rfl).1 (h1 c le_rfl).2 (by simp [fate, hj])

/-- Operations that cannot throw, through `Model/Heap`. -/
theorem heap_meets (s : St K) (h : Inv s) (op : Op K) (hl : Legal s.abs op) (r : Res K Unit) (A : ASt K)
    (hs : specStep s.abs op = some A) (f : Option Nat) (hr : ∀ s', step s op = .ok s' → r = .ok () s' f) :
    Meets r (some (A, false, 0)) := by
  have := step_refines s h op hl
  rw [hs] at this
  obtain ⟨s', h1, h2, h3⟩ := this
  exact meets_ok s' f h2 h3 (hr s' h1)

theorem step_construct (d : K) (s : St K) (h : Inv s) (x : Nat) (k : Kind) (n : Nat)
    (hl : LegalT s.abs (.construct x k n)) (f : Option Nat) :
    Meets (stepT d (.construct x k n) s f) (specT d s.abs (.construct x k n) f) := by
  have hx : s.objs x = none := by simpa [LegalT, St.abs] using hl
  rw [specT_of _ _ _ _ rfl]
  have a1 := inv_new s h x hx k (List.replicate n d)
  have a2 := abs_new s h x k (List.replicate n d)
  rw [List.length_replicate] at a1 a2
  rcases f with _ | _ | j
  · exact meets_ok _ none a1 a2 (by simp [stepT, constructT, Th.bind, newArr_run]; rfl)
  · exact meets_threw s h rfl (by simp [stepT, constructT, Th.bind, newArr_run])
  · have : (some (j+1)).bind (fun k' => if k' < actions s.abs (.construct x k n) then some k' else none) =
        none := by simp [actions]
    rw [this]
    exact meets_ok _ (some j) a1 a2 (by simp [stepT, constructT, Th.bind, newArr_run]; rfl)

theorem step_fillCtor (d : K) (s : St K) (h : Inv s) (x : Nat) (k : Kind) (l : List K)
    (hl : LegalT s.abs (.fillCtor x k l)) (f : Option Nat) :
    Meets (stepT d (.fillCtor x k l) s f) (specT d s.abs (.fillCtor x k l) f) := by
  have hx : s.objs x = none := by simpa [LegalT, St.abs] using hl
  rw [specT_of _ _ _ _ rfl]
  exact ctor_clean s h x hx d k l (fun p => fillLoop (some p) l l.length) f fun f =>
    fillLoop_run _ _ _ _ (alloc_next _ _) (by simp) f

theorem step_convCtor (d : K) (s : St K) (h : Inv s) (x : Nat) (k : Kind) (n y : Nat)
    (hl : LegalT s.abs (.convCtor x k n y)) (f : Option Nat) :
    Meets (stepT d (.convCtor x k n y) s f) (specT d s.abs (.convCtor x k n y) f) := by
  obtain ⟨hx, hy⟩ := hl
  have hx : s.objs x = none := by simpa [St.abs] using hx
  obtain ⟨k', p, m, l, ho, hp, hm, ha⟩ := get_obj s h y hy
  have hsz : sz s.abs y = m := sz_some _ _ _ _ _ ha
  have hn := next_dead s h
  have hpn : p ≠ s.next := fun e => by rw [e, hn] at hp; cases hp
  subst hm
  set n' := (if k = .bigStatic then n else l.length) with hn'
  have hcs : convSize s.abs k n y = n' := by simp [convSize, hsz, hn']
  have hrun : stepT d (.convCtor x k n y) s f = ((newArr d n').bind fun p' =>
      (onThrow ((sizeTest n' l.length).bind fun _ => copyLoop (some p') (some p) n')
        (fun s => s.free (some p'))).bind fun _ => Th.setObj x (some ⟨k, some p', n'⟩)) s f := by
    simp only [stepT, convCtorT]
    conv_lhs => unfold Th.bind
    rw [obj_run s y _ ho]
    rfl
  by_cases hmm : n' = l.length
  · rw [specT_of _ _ _ _ (by simp [mismatch, hcs, hsz, hmm]), hrun]
    simp only [actions, thrownT, lostT, doneT, hcs, vals_some _ _ _ _ _ ha, hmm]
    exact ctor_clean s h x hx d k l (fun p' => (sizeTest l.length l.length).bind fun _ =>
      copyLoop (some p') (some p) l.length) f fun f => by
        simp only [Th.bind, sizeTest, if_true]
        exact copyLoop_run _ _ _ _ _ (alloc_next _ _)
          (by simp [St.alloc, upd_ne _ _ _ _ hpn, hp]) (by simp) f
  · rw [hrun]
    rcases f with _ | _ | j
    · have : specT d s.abs (.convCtor x k n y) none = none := by
        simp [specT, mismatch, hcs, hsz, hmm]
      rw [this]
      simp [Meets, Th.bind, newArr_run, onThrow, sizeTest, hmm]
    · have : specT d s.abs (.convCtor x k n y) (some 0) = some (s.abs, true, 0) := by
        simp [specT, mismatch, throws, actions, thrownT, lostT]
      rw [this]
      exact meets_threw s h rfl (by simp [Th.bind, newArr_run])
    · have : specT d s.abs (.convCtor x k n y) (some (j+1)) = none := by
        simp [specT, mismatch, hcs, hsz, hmm]
      rw [this]
      simp [Meets, Th.bind, newArr_run, onThrow, sizeTest, hmm]

theorem step_copy (d : K) (s : St K) (h : Inv s) (x y : Nat)
    (hl : LegalT s.abs (.copy x y)) (f : Option Nat) :
    Meets (stepT d (.copy x y) s f) (specT d s.abs (.copy x y) f) := by
  obtain ⟨hx, hy⟩ := hl
  have hx : s.objs x = none := by simpa [St.abs] using hx
  obtain ⟨k', p, m, l, ho, hp, hm, ha⟩ := get_obj s h y hy
  subst hm
  rw [specT_of _ _ _ _ rfl]
  simp only [actions, thrownT, lostT, doneT, sz_some _ _ _ _ _ ha, ha]
  exact copyT_meets s h x y d f hx k' p l ho hp

theorem step_move (d : K) (s : St K) (h : Inv s) (x y : Nat)
    (hl : LegalT s.abs (.move x y)) (f : Option Nat) :
    Meets (stepT d (.move x y) s f) (specT d s.abs (.move x y) f) := by
  have hl' : Legal s.abs (.move x y) := hl
  obtain ⟨hx, hy⟩ := hl
  have hx : s.objs x = none := by simpa [St.abs] using hx
  obtain ⟨k', p, m, l, ho, hp, hm, ha⟩ := get_obj s h y hy
  subst hm
  rw [specT_of _ _ _ _ rfl]
  by_cases hk : k' = .dynVec
  · have : f.bind (fun k => if k < actions s.abs (.move x y) then some k else none) = none := by
      cases f <;> simp [actions, isDyn_some _ _ _ _ _ ha, hk]
    rw [this]
    refine heap_meets s h (.move x y) hl' _ _ ?_ f ?_
    · simp [specStep, ha, hk, doneT, isDyn_some _ _ _ _ _ ha]
    · intro s' hs'
      simp only [step, move, St.obj, ho, Outcome.bind_ok, hk, Outcome.ok.injEq] at hs'
      subst hs'
      simp [stepT, moveT, Th.bind, obj_run s y _ ho, hk, Th.setObj]
  · have hd : isDyn s.abs y = false := by simp [isDyn_some _ _ _ _ _ ha, hk]
    simp only [actions, hd, thrownT, lostT, doneT, sz_some _ _ _ _ _ ha, ha]
    have e : stepT d (.move x y) s f = copyT d x y s f := by
      simp only [stepT, moveT]
      conv_lhs => unfold Th.bind
      rw [obj_run s y _ ho]
      dsimp only
      cases k' <;> simp_all
    rw [e]
    exact copyT_meets s h x y d f hx k' p l ho hp

theorem step_assign (d : K) (s : St K) (h : Inv s) (x y : Nat)
    (hl : LegalT s.abs (.assign x y)) (f : Option Nat) :
    Meets (stepT d (.assign x y) s f) (specT d s.abs (.assign x y) f) := by
  obtain ⟨hx, hy⟩ := hl
  obtain ⟨kx, p, m, lx, hox, hp, hm, hax⟩ := get_obj s h x hx
  obtain ⟨ky, q, m', ly, hoy, hq, hm', hay⟩ := get_obj s h y hy
  subst hm; subst hm'
  by_cases hs : lx.length = ly.length
  · rw [specT_of _ _ _ _ (by simp [mismatch, sz_some _ _ _ _ _ hax, sz_some _ _ _ _ _ hay, hs])]
    simp only [actions, thrownT, lostT, doneT, sz_some _ _ _ _ _ hax, vals_some _ _ _ _ _ hax,
      vals_some _ _ _ _ _ hay, hs]
    refine assign_meets s h x p kx ly lx hox hs.symm _ f ?_
    rw [← copyLoop_run s p q ly lx hp hq hs.symm]
    simp [stepT, assignT, Th.bind, obj_run s x _ hox, obj_run s y _ hoy, sizeTest, hs]
  · have : specT d s.abs (.assign x y) f = none := by
      simp [specT, mismatch, sz_some _ _ _ _ _ hax, sz_some _ _ _ _ _ hay, hs]
    rw [this]
    simp [Meets, stepT, assignT, Th.bind, obj_run s x _ hox, obj_run s y _ hoy, sizeTest, hs]

theorem step_fill (d : K) (s : St K) (h : Inv s) (x : Nat) (l : List K)
    (hl : LegalT s.abs (.fill x l)) (f : Option Nat) :
    Meets (stepT d (.fill x l) s f) (specT d s.abs (.fill x l) f) := by
  obtain ⟨kx, p, m, lx, hox, hp, hm, hax⟩ := get_obj s h x hl
  subst hm
  by_cases hs : lx.length = l.length
  · rw [specT_of _ _ _ _ (by simp [mismatch, sz_some _ _ _ _ _ hax, hs])]
    simp only [actions, thrownT, lostT, doneT, sz_some _ _ _ _ _ hax, vals_some _ _ _ _ _ hax, hs]
    refine assign_meets s h x p kx l lx hox hs.symm _ f ?_
    rw [← fillLoop_run s p l lx hp hs.symm]
    simp [stepT, fillT', Th.bind, obj_run s x _ hox, sizeTest, hs]
  · have : specT d s.abs (.fill x l) f = none := by
      simp [specT, mismatch, sz_some _ _ _ _ _ hax, hs]
    rw [this]
    simp [Meets, stepT, fillT', Th.bind, obj_run s x _ hox, sizeTest, hs]

theorem step_swap (d : K) (s : St K) (h : Inv s) (x y : Nat)
    (hl : LegalT s.abs (.swap x y)) (f : Option Nat) :
    Meets (stepT d (.swap x y) s f) (specT d s.abs (.swap x y) f) := by
  have hl' : Legal s.abs (.swap x y) := hl
  obtain ⟨o, o', l, l', hx, hy, hkk, hv, hv'⟩ := hl
  obtain ⟨kx, p, m, lx, hox, hp, hm, hax⟩ := get_obj s h x ⟨o, l, hx, hv⟩
  obtain ⟨ky, q, m', ly, hoy, hq, hm', hay⟩ := get_obj s h y ⟨o', l', hy, hv'⟩
  have hk : kx = ky := by
    rw [hax] at hx; rw [hay] at hy; cases hx; cases hy; exact hkk
  subst hm; subst hm'; subst hk
  by_cases hs : lx.length = ly.length
  · rw [specT_of _ _ _ _ (by simp [mismatch, sz_some _ _ _ _ _ hax, sz_some _ _ _ _ _ hay, hs])]
    by_cases hk : kx = .dynVec
    · have : f.bind (fun k => if k < actions s.abs (.swap x y) then some k else none) = none := by
        cases f <;> simp [actions, isDyn_some _ _ _ _ _ hax, hk]
      rw [this]
      refine heap_meets s h (.swap x y) hl' _ _ ?_ f ?_
      · simp only [specStep, hax, hay, hs, if_true, doneT, Option.some.injEq]
        rw [vals_some _ _ _ _ _ hax, vals_some _ _ _ _ _ hay]
        unfold setVal
        rw [hax]
        by_cases e : y = x
        · subst e; rw [hax] at hay
          obtain ⟨_, e2⟩ : lx.length = ly.length ∧ lx = ly := by simpa using hay
          subst e2; simp
        · simp [upd_ne _ _ _ _ e, hay, hs]
      · intro s' hs'
        simp only [step, swap, St.obj, hox, hoy, Outcome.bind_ok, hk, hs, ne_eq, not_true_eq_false,
          if_false, Outcome.ok.injEq] at hs'
        subst hs'
        simp [stepT, swapT, Th.bind, obj_run s x _ hox, obj_run s y _ hoy, hk, Th.setObj, sizeTest, hs]
    · have hd : isDyn s.abs x = false := by simp [isDyn_some _ _ _ _ _ hax, hk]
      simp only [actions, hd, thrownT, lostT, doneT, sz_some _ _ _ _ _ hax, vals_some _ _ _ _ _ hax,
        vals_some _ _ _ _ _ hay, Bool.false_eq_true, if_false]
      refine fate_meets s _ f _ (fun k => smid s p q lx ly ((k+1)/3) (k/3))
        (fun k => setVal (setVal s.abs x (ly.take ((k+1)/3) ++ lx.drop ((k+1)/3))) y
          (lx.take (k/3) ++ ly.drop (k/3))) _ ?_
        (fun j _ => smid_inv s h x y p q kx kx lx ly hox hoy hs _ _) ?_
      · rw [← swapLoop_run s p q lx ly hp hq hs]
        simp only [stepT, swapT, Th.bind, obj_run s x _ hox, obj_run s y _ hoy, sizeTest, hs, if_true]
      · have e1 : (3 * lx.length + 1)/3 = lx.length := by omega
        have e2 : (3 * lx.length)/3 = lx.length := by omega
        simp only [e1, e2]
        rw [List.take_of_length_le (by omega), List.drop_eq_nil_of_le (by omega), List.append_nil,
          List.take_of_length_le (by omega), List.drop_eq_nil_of_le (by omega), List.append_nil]
  · have : specT d s.abs (.swap x y) f = none := by
      simp [specT, mismatch, sz_some _ _ _ _ _ hax, sz_some _ _ _ _ _ hay, hs]
    rw [this]
    simp [Meets, stepT, swapT, Th.bind, obj_run s x _ hox, obj_run s y _ hoy, sizeTest, hs]

theorem step_write (d : K) (s : St K) (h : Inv s) (x i : Nat) (v : K)
    (hl : LegalT s.abs (.write x i v)) (f : Option Nat) :
    Meets (stepT d (.write x i v) s f) (specT d s.abs (.write x i v) f) := by
  obtain ⟨o, l, hx, hv, hi⟩ := hl
  obtain ⟨kx, p, m, lx, hox, hp, hm, hax⟩ := get_obj s h x ⟨o, l, hx, hv⟩
  have hi : i < m := by rw [hax] at hx; cases hx; exact hi
  rw [specT_of _ _ _ _ rfl]
  simp only [actions, thrownT, lostT, doneT, vals_some _ _ _ _ _ hax]
  have := fate_meets s (stepT d (.write x i v) s f) f 1 (fun j => if j = 0 then s else setb s p (lx.set i v))
    (fun j => if j = 0 then s.abs else setVal s.abs x (lx.set i v)) (setVal s.abs x (lx.set i v))
    (by
      rw [← wr_run s p i lx v f hp (by omega)]
      simp [stepT, writeT, Th.bind, obj_run s x _ hox])
    (by
      intro j _
      by_cases hj : j = 0
      · simp [hj, h]
      · simp only [hj, if_false]
        exact ⟨inv_setb s h x p m kx _ hox (by simp; omega), setVal_abs s h x p m kx _ hox⟩) (by simp)
  revert this
  rcases f with _ | _ | j <;> simp

theorem step_destroy (d : K) (s : St K) (h : Inv s) (x : Nat)
    (hl : LegalT s.abs (.destroy x)) (f : Option Nat) :
    Meets (stepT d (.destroy x) s f) (specT d s.abs (.destroy x) f) := by
  rw [specT_of _ _ _ _ rfl]
  have : f.bind (fun k => if k < actions s.abs (.destroy x) then some k else none) = none := by
    cases f <;> simp [actions]
  rw [this]
  refine heap_meets s h (.destroy x) hl _ _ rfl f ?_
  intro s' hs'
  simp only [step, destroy, St.obj] at hs'
  cases ho : s.objs x with
  | none => simp [ho] at hs'
  | some o =>
    simp only [ho, Outcome.bind_ok] at hs'
    simp only [stepT, destroyT, Th.bind, obj_run s x _ ho, del]
    cases hf : s.free o.ptr with
    | ok s1 =>
      rw [hf] at hs'
      simp only [Outcome.bind_ok, Outcome.ok.injEq] at hs'
      subst hs'; rfl
    | abort => rw [hf] at hs'; cases hs'
    | ub => rw [hf] at hs'; cases hs'

theorem smid_free (s : St K) (h : Inv s) (p q : Nat) (lx ly l0 : List K) (hp : p ≠ s.next)
    (hq : q ≠ s.next) (i j : Nat) :
    (smid (s.alloc l0).2 p q lx ly i j).free (some s.next) = .ok (smid (bump s) p q lx ly i j) := by
  have hn := next_dead s h
  have b : (smid (s.alloc l0).2 p q lx ly i j).bufs s.next = some l0 := by
    simp [smid, setb, upd_ne _ _ _ _ (Ne.symm hp), upd_ne _ _ _ _ (Ne.symm hq), St.alloc]
  simp only [St.free, b]
  congr 1
  simp only [smid, setb, St.alloc, bump]
  congr 1
  funext r
  simp only [upd]
  by_cases e : r = s.next
  · subst e; simp [Ne.symm hp, Ne.symm hq, hn]
  · simp [e]

theorem onThrow_bind_ok {α β : Type _} {m : Th K α} {c : St K → Outcome (St K)} {k : α → Th K β}
    {s s' : St K} {f f' : Option Nat} {a : α} (h : m s f = .ok a s' f') :
    ((onThrow m c).bind k) s f = k a s' f' := by simp [Th.bind, onThrow, h]
theorem onThrow_bind_threw {α β : Type _} {m : Th K α} {c : St K → Outcome (St K)} {k : α → Th K β}
    {s s' s'' : St K} {f : Option Nat} (h : m s f = .threw s') (hc : c s' = .ok s'') :
    ((onThrow m c).bind k) s f = .threw s'' := by simp [Th.bind, onThrow, h, hc]

/-- The two assignments of a swap of matrices. -/
theorem swapMat_tail (s : St K) (h : Inv s) (x y p q : Nat) (k k' : Kind) (lx ly : List K)
    (hox : s.objs x = some ⟨k, some p, lx.length⟩) (hp : s.bufs p = some lx)
    (hoy : s.objs y = some ⟨k', some q, ly.length⟩) (hq : s.bufs q = some ly)
    (hl : lx.length = ly.length) (f : Option Nat) :
    ((assignT x y).bind fun _ => (Th.obj y).bind fun oy =>
      (sizeTest oy.size lx.length).bind fun _ => copyLoop oy.ptr (some s.next) oy.size)
      (s.alloc lx).2 f =
    fate f (2 * lx.length) (fun j => smid (s.alloc lx).2 p q lx ly j (j - lx.length)) := by
  have hn := next_dead s h
  have hpn : p ≠ s.next := fun e => by rw [e, hn] at hp; cases hp
  have hqn : q ≠ s.next := fun e => by rw [e, hn] at hq; cases hq
  set s2 := (s.alloc lx).2 with hs2
  have hp2 : s2.bufs p = some lx := by simp [hs2, St.alloc, upd_ne _ _ _ _ hpn, hp]
  have hq2 : s2.bufs q = some ly := by simp [hs2, St.alloc, upd_ne _ _ _ _ hqn, hq]
  have ht2 : s2.bufs s.next = some lx := by simp [hs2, St.alloc]
  have hox2 : s2.objs x = some ⟨k, some p, lx.length⟩ := hox
  have hoy2 : s2.objs y = some ⟨k', some q, ly.length⟩ := hoy
  have r1 : ∀ f, assignT x y s2 f = fate f ly.length (mid s2 p ly lx) := fun f => by
    rw [← copyLoop_run s2 p q ly lx hp2 hq2 hl.symm]
    simp [assignT, Th.bind, obj_run s2 x _ hox2, obj_run s2 y _ hoy2, sizeTest, hl]
  set s3 := mid s2 p ly lx ly.length with hs3
  have hs3' : s3 = setb s2 p ly := mid_full _ _ _ _ hl.symm
  have hq3 : s3.bufs q = some ly := by
    rw [hs3']
    by_cases e : q = p
    · subst e; simp [setb]
    · simp [setb, upd_ne _ _ _ _ e, hq2]
  have ht3 : s3.bufs s.next = some lx := by
    rw [hs3']; simp [setb, upd_ne _ _ _ _ (Ne.symm hpn), ht2]
  have r2 : ∀ f, ((Th.obj y).bind fun oy => (sizeTest oy.size lx.length).bind fun _ =>
      copyLoop oy.ptr (some s.next) oy.size) s3 f = fate f lx.length (mid s3 q lx ly) := fun f => by
    rw [← copyLoop_run s3 q s.next lx ly hq3 ht3 hl]
    have : s3.objs y = some ⟨k', some q, ly.length⟩ := by rw [hs3']; exact hoy2
    simp [Th.bind, obj_run s3 y _ this, sizeTest, hl]
  have e1 : ∀ j, j ≤ lx.length → mid s2 p ly lx j = smid s2 p q lx ly j (j - lx.length) := by
    intro j hj
    rw [Nat.sub_eq_zero_of_le hj]
    simp only [mid, smid, List.take_zero, List.drop_zero, List.nil_append]
    by_cases e : q = p
    · subst e
      rw [hp2] at hq2; cases hq2
      simp [setb_setb]
    · exact (setb_same _ q ly (by simp [setb, upd_ne _ _ _ _ e, hq2])).symm
  have e2 : ∀ j, lx.length ≤ j → mid s3 q lx ly (j - lx.length) = smid s2 p q lx ly j (j - lx.length) := by
    intro j hj
    rw [hs3']
    have : ly.take j ++ lx.drop j = ly := by
      rw [List.take_of_length_le (by omega), List.drop_eq_nil_of_le (by omega), List.append_nil]
    simp only [mid, smid, this]
  have e3 := e2 (2 * lx.length) (by omega)
  rw [show 2 * lx.length - lx.length = lx.length by omega] at e3
  cases f with
  | none =>
    simp only [Th.bind, r1, fate]
    have := r2 none
    simp only [Th.bind, fate] at this
    rw [← hs3, this, e3]
    congr 2; omega
  | some j =>
    by_cases hj : j < lx.length
    · have hj' : j < ly.length := by omega
      simp only [Th.bind, r1, fate, if_pos hj', if_pos (show j < 2 * lx.length by omega)]
      rw [e1 j (by omega)]
    · have hj' : ¬ j < ly.length := by omega
      simp only [Th.bind, r1, fate, if_neg hj']
      have := r2 (some (j - ly.length))
      simp only [Th.bind, fate] at this
      rw [← hs3, this]
      by_cases hj2 : j < 2 * lx.length
      · rw [if_pos (by omega), if_pos hj2, ← hl, e2 j (by omega)]
      · rw [if_neg (by omega), if_neg hj2, e3]
        congr 2 <;> omega

theorem step_swapMat (d : K) (s : St K) (h : Inv s) (x y : Nat)
    (hl : LegalT s.abs (.swapMat x y)) (f : Option Nat) :
    Meets (stepT d (.swapMat x y) s f) (specT d s.abs (.swapMat x y) f) := by
  obtain ⟨o, o', l, l', hx, hy, hkk, hv, hv'⟩ := hl
  obtain ⟨kx, p, m, lx, hox, hp, hm, hax⟩ := get_obj s h x ⟨o, l, hx, hv⟩
  obtain ⟨ky, q, m', ly, hoy, hq, hm', hay⟩ := get_obj s h y ⟨o', l', hy, hv'⟩
  subst hm; subst hm'
  have hn := next_dead s h
  have hpn : p ≠ s.next := fun e => by rw [e, hn] at hp; cases hp
  have hqn : q ≠ s.next := fun e => by rw [e, hn] at hq; cases hq
  have hb : ∀ f, copyLoop (some s.next) (some p) lx.length (s.alloc (List.replicate lx.length d)).2 f =
      fate f lx.length (mid (s.alloc (List.replicate lx.length d)).2 s.next lx (List.replicate lx.length d)) :=
    fun f => copyLoop_run _ _ _ _ _ (alloc_next _ _)
      (by simp [St.alloc, upd_ne _ _ _ _ hpn, hp]) (by simp) f
  have h0 := obj_run s x _ hox
  have hszx : sz s.abs x = lx.length := sz_some _ _ _ _ _ hax
  have hszy : sz s.abs y = ly.length := sz_some _ _ _ _ _ hay
  have hvx : vals s.abs x = lx := vals_some _ _ _ _ _ hax
  have hvy : vals s.abs y = ly := vals_some _ _ _ _ _ hay
  -- setting a value to what it is
  have hsame : setVal (setVal s.abs x lx) y ly = s.abs := by
    funext z
    have e2 : setVal s.abs x lx = s.abs := by
      funext w; by_cases e : w = x
      · subst e; simp [setVal, hax]
      · simp [setVal, upd_ne _ _ _ _ e]
    rw [e2]
    by_cases e : z = y
    · subst e; simp [setVal, hay]
    · simp [setVal, upd_ne _ _ _ _ e]
  -- no memory for the temporary
  by_cases hf0 : f = some 0
  · subst hf0
    have : specT d s.abs (.swapMat x y) (some 0) = some (s.abs, true, 0) := by
      simp [specT, mismatch, throws, actions, thrownT, lostT, hvx, hvy, hsame]
    rw [this]
    exact meets_threw s h rfl (by simp [stepT, swapMatT, Th.bind, h0, newArr_run])
  -- copying into the temporary throws
  by_cases hf1 : ∃ j, f = some (j+1) ∧ j < lx.length
  · obtain ⟨j, rfl, hj⟩ := hf1
    have : specT d s.abs (.swapMat x y) (some (j+1)) = some (s.abs, true, 1) := by
      have a1 : ¬ lx.length < j + 1 := by omega
      have a2 : j + 1 < 1 + 3 * lx.length := by omega
      have a3 : j + 1 - (1 + lx.length) = 0 := by omega
      have a4 : j + 1 - (1 + 2 * lx.length) = 0 := by omega
      simp [specT, mismatch, throws, actions, thrownT, lostT, hvx, hvy, hszx, a1, a2, a3, a4, hsame]
      omega
    rw [this]
    refine ⟨_, [s.next], by simp, leak_alloc s h (lx.take j ++ (List.replicate lx.length d).drop j),
        leak_abs s h _, ?_⟩
    simp only [stepT, swapMatT, Th.bind, h0, newArr_run, hb, fate, if_pos hj, mid_alloc, if_true]
  -- the temporary is complete
  have hpre : ∃ f1, stepT d (.swapMat x y) s f = ((onThrow ((assignT x y).bind fun _ =>
      (Th.obj y).bind fun oy => (sizeTest oy.size lx.length).bind fun _ =>
        copyLoop oy.ptr (some s.next) oy.size) (fun u => u.free (some s.next))).bind fun _ =>
      del (some s.next)) (s.alloc lx).2 f1 ∧ f1 = f.map (· - (1 + lx.length)) ∧
      (∀ k, f = some k → 1 + lx.length ≤ k) := by
    rcases f with _ | _ | j
    · refine ⟨none, ?_, rfl, by simp⟩
      simp only [stepT, swapMatT, Th.bind, h0, newArr_run, hb, fate, full_alloc]
    · exact absurd rfl hf0
    · have hj : ¬ j < lx.length := fun hj => hf1 ⟨j, rfl, hj⟩
      refine ⟨some (j - lx.length), ?_, ?_, ?_⟩
      · simp only [stepT, swapMatT, Th.bind, h0, newArr_run, hb, fate, if_neg hj, full_alloc]
      · simp; omega
      · intro k hk; cases hk; omega
  obtain ⟨f1, hrun, hf1e, hfk⟩ := hpre
  rw [hrun]
  by_cases hs : lx.length = ly.length
  · have ht := fun f => swapMat_tail s h x y p q kx ky lx ly hox hp hoy hq hs f
    have key := fun i j => smid_inv (bump s) (inv_bump s h) x y p q kx ky lx ly hox hoy hs i j
    have habs : (bump s).abs = s.abs := rfl
    rw [habs] at key
    rw [specT_of _ _ _ _ (by simp [mismatch, hszx, hszy, hs])]
    have hdone : setVal (setVal s.abs x ly) y lx =
        setVal (setVal s.abs x (ly.take (2*lx.length) ++ lx.drop (2*lx.length))) y
          (lx.take (2*lx.length - lx.length) ++ ly.drop (2*lx.length - lx.length)) := by
      rw [List.take_of_length_le (by omega), List.drop_eq_nil_of_le (by omega), List.append_nil,
        List.take_of_length_le (by omega), List.drop_eq_nil_of_le (by omega), List.append_nil]
    have hdel : ∀ i j f, del (some s.next) (smid (s.alloc lx).2 p q lx ly i j) f =
        .ok () (smid (bump s) p q lx ly i j) f := fun i j f => by
      simp only [del, smid_free s h p q lx ly lx hpn hqn]
    rcases f with _ | k
    · simp only [Option.map_none] at hf1e
      subst hf1e
      refine meets_ok _ none (key (2 * lx.length) (2 * lx.length - lx.length)).1 ?_ ?_
      · rw [(key _ _).2]; simp only [doneT, hvx, hvy, hdone]
      · rw [onThrow_bind_ok (ht none), hdel]
    · have hk := hfk k rfl
      simp only [Option.map_some] at hf1e
      subst hf1e
      by_cases hk3 : k < 1 + 3 * lx.length
      · have : (some k).bind (fun k' => if k' < actions s.abs (.swapMat x y) then some k' else none) =
            some k := by simp [actions, hszx, hk3]
        rw [this]
        have hlost : lostT s.abs k (.swapMat x y) = 0 := by
          simp [lostT, hszx]; omega
        dsimp only
        rw [hlost]
        refine meets_threw _ (key (k - (1 + lx.length)) (k - (1 + lx.length) - lx.length)).1 ?_ ?_
        · rw [(key _ _).2]
          simp only [thrownT, hvx, hvy, hszx]
          rw [show k - (1 + lx.length) - lx.length = k - (1 + 2 * lx.length) by omega]
        · have := ht (some (k - (1 + lx.length)))
          simp only [fate, if_pos (show k - (1 + lx.length) < 2 * lx.length by omega)] at this
          exact onThrow_bind_threw this (smid_free s h p q lx ly lx hpn hqn _ _)
      · have : (some k).bind (fun k' => if k' < actions s.abs (.swapMat x y) then some k' else none) =
            none := by simp [actions, hszx]; omega
        rw [this]
        refine meets_ok _ (some (k - (1 + lx.length) - 2 * lx.length)) (key (2 * lx.length) (2 * lx.length - lx.length)).1 ?_ ?_
        · rw [(key _ _).2]; simp only [doneT, hvx, hvy, hdone]
        · have := ht (some (k - (1 + lx.length)))
          simp only [fate, if_neg (show ¬ k - (1 + lx.length) < 2 * lx.length by omega)] at this
          rw [onThrow_bind_ok this, hdel]
  · have : specT d s.abs (.swapMat x y) f = none := by
      rcases f with _ | k
      · simp [specT, mismatch, hszx, hszy, hs]
      · have := hfk k rfl
        simp [specT, mismatch, hszx, hszy, hs]; omega
    rw [this]
    have hox2 : (s.alloc lx).2.objs x = some ⟨kx, some p, lx.length⟩ := hox
    have hoy2 : (s.alloc lx).2.objs y = some ⟨ky, some q, ly.length⟩ := hoy
    simp [Meets, onThrow, assignT, Th.bind, obj_run _ x _ hox2, obj_run _ y _ hoy2, sizeTest, hs]

theorem step_meets (d : K) (s : St K) (h : Inv s) (op : TOp K) (hl : LegalT s.abs op) (f : Option Nat) :
    Meets (stepT d op s f) (specT d s.abs op f) := by
  cases op with
  | construct x k n => exact step_construct d s h x k n hl f
  | fillCtor x k l => exact step_fillCtor d s h x k l hl f
  | convCtor x k n y => exact step_convCtor d s h x k n y hl f
  | copy x y => exact step_copy d s h x y hl f
  | move x y => exact step_move d s h x y hl f
  | assign x y => exact step_assign d s h x y hl f
  | fill x l => exact step_fill d s h x l hl f
  | swap x y => exact step_swap d s h x y hl f
  | swapMat x y => exact step_swapMat d s h x y hl f
  | write x i v => exact step_write d s h x i v hl f
  | destroy x => exact step_destroy d s h x hl f

/-! ### Histories -/

theorem fr_trans {g g' : Nat → Option (List K)} {L L' : List Nat} {s u t : St K}
    (h1 : Fr g L' s u) (h2 : Fr g' L u t) (hd : ∀ p, p ∈ L' → u.bufs p ≠ none) :
    Fr t.bufs (L' ++ L) s t := by
  refine ⟨h2.objs.trans h1.objs, h2.next.trans h1.next, ?_, ?_, fun _ _ => rfl⟩
  · intro p hp
    simp only [List.mem_append, not_or] at hp
    rw [h2.bufs p hp.2, h1.bufs p hp.1]
  · intro p hp
    by_cases hl : p ∈ L'
    · exact h1.dead p hl
    · have hp' : p ∈ L := by
        rcases List.mem_append.1 hp with h | h
        · exact absurd h hl
        · exact h
      have := h2.dead p hp'
      rw [h1.bufs p hl, h1.next] at this
      exact this

theorem step_meetsL (d : K) (L : List Nat) (t : St K) (h : InvL L t) (op : TOp K) (hl : LegalT t.abs op)
    (f : Option Nat) : match specT d t.abs op f with
      | none => stepT d op t f = .abort
      | some (a, thr, n) => ∃ t' L', L'.length = n ∧ InvL (L' ++ L) t' ∧ t'.abs = a ∧
          (if thr then stepT d op t f = .threw t' else ∃ f', stepT d op t f = .ok () t' f') := by
  obtain ⟨hnd, hlive, s, hs, hfr⟩ := h
  have habs := abs_fr hs hfr
  rw [habs] at hl ⊢
  have hm := step_meets d s hs op hl f
  have hF := framed_stepT d op _ _ _ _ f hfr
  revert hm
  cases hsp : specT d s.abs op f with
  | none =>
    intro hm
    simp only [Meets] at hm
    rw [hm] at hF
    revert hF
    cases stepT d op t f <;> simp [RFr]
  | some r =>
    obtain ⟨a, thr, n⟩ := r
    intro hm
    simp only [Meets] at hm ⊢
    obtain ⟨s', L', h1, ⟨hnd', hlive', s0, hs0, hfr0⟩, h3, h4⟩ := hm
    have fin : ∀ t', Fr t.bufs L s' t' → InvL (L' ++ L) t' ∧ t'.abs = a := by
      intro t' hft
      have hdis : ∀ p, p ∈ L' → p ∉ L := fun p hp hp' => hlive' p hp (hft.dead p hp').1
      have hfr2 := fr_trans hfr0 hft hlive'
      refine ⟨⟨?_, ?_, s0, hs0, hfr2⟩, ?_⟩
      · rw [List.nodup_append]
        exact ⟨hnd', hnd, fun p hp q hq e => hdis p hp (e ▸ hq)⟩
      · intro p hp
        by_cases hpl : p ∈ L
        · rw [hft.keep p hpl]; exact hlive p hpl
        · rw [hft.bufs p hpl]
          rcases List.mem_append.1 hp with h | h
          · exact hlive' p h
          · exact absurd h hpl
      · rw [abs_fr hs0 hfr2, ← h3, abs_fr hs0 hfr0]
    cases thr with
    | true =>
      simp only [if_true] at h4 ⊢
      rw [h4] at hF
      revert hF
      cases ht : stepT d op t f <;> simp only [RFr] <;> intro hF
      all_goals first | exact hF.elim | skip
      rename_i t'
      exact ⟨t', L', h1, (fin t' hF).1, (fin t' hF).2, rfl⟩
    | false =>
      simp only [Bool.false_eq_true, if_false] at h4 ⊢
      obtain ⟨f', h4⟩ := h4
      rw [h4] at hF
      revert hF
      cases ht : stepT d op t f <;> simp only [RFr] <;> intro hF
      all_goals first | exact hF.elim | skip
      rename_i _ t' f''
      exact ⟨t', L', h1, (fin t' hF.2.2).1, (fin t' hF.2.2).2, f'', rfl⟩

theorem run_meets (d : K) (ops : List (TOp K × Option Nat)) (L : List Nat) (t : St K) (h : InvL L t)
    (hl : LegalRunT d t.abs ops) : match specRunT d t.abs ops with
      | none => runT d t ops = .abort
      | some (a, bs, n) => ∃ t' L', runT d t ops = .ok (t', bs) ∧ t'.abs = a ∧
          L'.length = L.length + n ∧ InvL L' t' := by
  induction ops generalizing L t with
  | nil => exact ⟨t, L, rfl, rfl, rfl, h⟩
  | cons o ops ih =>
    obtain ⟨op, f⟩ := o
    obtain ⟨hl1, hl2⟩ := hl
    have hs := step_meetsL d L t h op hl1 f
    simp only [specRunT]
    cases hsp : specT d t.abs op f with
    | none =>
      rw [hsp] at hs
      simp only [Option.bind_none] at hs ⊢
      simp only [runT, hs]
    | some r =>
      obtain ⟨a, thr, n⟩ := r
      rw [hsp] at hs
      simp only [Option.bind_some] at hs ⊢
      obtain ⟨t', L', h1, h2, h3, h4⟩ := hs
      have := ih _ t' h2 (h3 ▸ hl2 _ hsp)
      rw [h3] at this
      have hr : runT d t ((op, f) :: ops) = (runT d t' ops).bind fun r => Outcome.ok (r.1, thr :: r.2) := by
        cases thr with
        | true => simp only [if_true] at h4; simp only [runT, h4]
        | false =>
          simp only [Bool.false_eq_true, if_false] at h4
          obtain ⟨f', h4⟩ := h4
          simp only [runT, h4]
      rw [hr]
      cases hsp2 : specRunT d a ops with
      | none =>
        rw [hsp2] at this
        simp only [Option.bind_none] at this ⊢
        rw [this]; rfl
      | some r =>
        obtain ⟨a', bs, n'⟩ := r
        rw [hsp2] at this
        obtain ⟨t'', L'', k1, k2, k3, k4⟩ := this
        simp only [Option.bind_some]
        refine ⟨t'', L'', by rw [k1]; rfl, k2, ?_, k4⟩
        rw [k3, List.length_append, h1]; omega

theorem tidy_of_invL {L : List Nat} {t : St K} (h : InvL L t) : Tidy L t := by
  obtain ⟨hnd, hlive, s, hs, hfr⟩ := h
  have hne : ∀ p x o, p ∈ L → t.objs x = some o → o.ptr ≠ some p := by
    intro p x o hp hx hc
    rw [hfr.objs] at hx
    obtain ⟨l, h1, _⟩ := hs.owned x o p hx hc
    rw [(hfr.dead p hp).1] at h1; cases h1
  refine ⟨?_, ?_, ?_, hne, hnd⟩
  · intro x o p hx hp
    have : p ∉ L := fun hc => hne p x o hc hx hp
    rw [hfr.bufs p this]
    rw [hfr.objs] at hx
    exact hs.owned x o p hx hp
  · intro x y o o' p hx hy
    rw [hfr.objs] at hx hy
    exact hs.distinct x y o o' p hx hy
  · intro p
    constructor
    · rintro ⟨l, hl⟩
      by_cases hp : p ∈ L
      · exact Or.inl hp
      · rw [hfr.bufs p hp] at hl
        rw [hfr.objs]
        exact Or.inr (hs.noLeak p l hl)
    · rintro (hp | ⟨x, o, hx, hp⟩)
      · exact Option.ne_none_iff_exists'.1 (hlive p hp)
      · have hpl : p ∉ L := fun hc => hne p x o hc hx hp
        rw [hfr.bufs p hpl]
        rw [hfr.objs] at hx
        obtain ⟨l, hl, _⟩ := hs.owned x o p hx hp
        exact ⟨l, hl⟩

end TooN.Heap
