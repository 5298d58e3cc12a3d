import Verif.Proof.Special
import Verif.Props.OptIEEE
/-!
# NaN and infinities in IEEE arithmetic
-/
set_option linter.unusedSectionVars false
namespace TooN.Special
open scoped Classical
variable {G : Grid}

/-- the value is an infinity or NaN -/
def NonFin (x : XF G) : Prop := ∀ v h, x ≠ .fin v h

theorem nonFin_nan : NonFin (.nan : XF G) := fun _ _ h => by cases h
theorem nonFin_pinf : NonFin (.pinf : XF G) := fun _ _ h => by cases h
theorem nonFin_ninf : NonFin (.ninf : XF G) := fun _ _ h => by cases h

theorem xadd (a b : XF G) : a + b = XF.add a b := rfl
theorem xsub (a b : XF G) : a - b = XF.add a (XF.neg b) := rfl
theorem xmul (a b : XF G) : a * b = XF.mul a b := rfl
theorem xdiv (a b : XF G) : a / b = XF.div a b := rfl
theorem xneg (a : XF G) : -a = XF.neg a := rfl

theorem infOf_nonFin (x : ℝ) : NonFin (XF.infOf G x) := by
  unfold XF.infOf
  split_ifs
  · exact nonFin_pinf
  · exact nonFin_ninf
  · exact nonFin_nan

theorem nan_add (a b : XF G) (h : a = .nan ∨ b = .nan) : XF.add a b = .nan := by
  rcases h with rfl | rfl
  · cases b <;> rfl
  · cases a <;> rfl
theorem nan_mul (a b : XF G) (h : a = .nan ∨ b = .nan) : XF.mul a b = .nan := by
  rcases h with rfl | rfl
  · cases b <;> rfl
  · cases a <;> rfl
theorem nan_div (a b : XF G) (h : a = .nan ∨ b = .nan) : XF.div a b = .nan := by
  rcases h with rfl | rfl
  · cases b <;> rfl
  · cases a <;> rfl

theorem sticky_nan : Sticky (fun x : XF G => x = .nan) where
  add := fun a b h => nan_add a b h
  sub := by
    intro a b h
    refine nan_add a _ ?_
    rcases h with rfl | rfl
    · exact Or.inl rfl
    · exact Or.inr rfl
  mul := fun a b h => nan_mul a b h
  num := fun a b h => nan_div a b (Or.inl h)
  neg := by rintro a rfl; rfl

theorem nf_neg (a : XF G) (h : NonFin a) : NonFin (XF.neg a) := by
  cases a with
  | fin v hv => exact (h v hv rfl).elim
  | pinf => exact nonFin_ninf
  | ninf => exact nonFin_pinf
  | nan => exact nonFin_nan

theorem nf_add (a b : XF G) (h : NonFin a ∨ NonFin b) : NonFin (XF.add a b) := by
  cases a with
  | fin v hv =>
    cases b with
    | fin w hw => rcases h with h | h <;> exact (h _ _ rfl).elim
    | pinf => exact nonFin_pinf
    | ninf => exact nonFin_ninf
    | nan => exact nonFin_nan
  | pinf => cases b <;> first | exact nonFin_nan | exact nonFin_pinf
  | ninf => cases b <;> first | exact nonFin_nan | exact nonFin_ninf
  | nan => cases b <;> exact nonFin_nan

theorem nf_mul (a b : XF G) (h : NonFin a ∨ NonFin b) : NonFin (XF.mul a b) := by
  cases a with
  | fin v hv =>
    cases b with
    | fin w hw => rcases h with h | h <;> exact (h _ _ rfl).elim
    | pinf => exact infOf_nonFin _
    | ninf => exact infOf_nonFin _
    | nan => exact nonFin_nan
  | pinf => cases b <;> first | exact nonFin_nan | exact nonFin_pinf | exact nonFin_ninf | exact infOf_nonFin _
  | ninf => cases b <;> first | exact nonFin_nan | exact nonFin_pinf | exact nonFin_ninf | exact infOf_nonFin _
  | nan => cases b <;> exact nonFin_nan

theorem nf_div (a b : XF G) (h : NonFin a) : NonFin (XF.div a b) := by
  cases a with
  | fin v hv => exact (h _ _ rfl).elim
  | pinf =>
    cases b with
    | fin w hw => unfold XF.div; dsimp only; split_ifs <;> first | exact nonFin_pinf | exact nonFin_ninf
    | pinf => exact nonFin_nan
    | ninf => exact nonFin_nan
    | nan => exact nonFin_nan
  | ninf =>
    cases b with
    | fin w hw => unfold XF.div; dsimp only; split_ifs <;> first | exact nonFin_pinf | exact nonFin_ninf
    | pinf => exact nonFin_nan
    | ninf => exact nonFin_nan
    | nan => exact nonFin_nan
  | nan => cases b <;> exact nonFin_nan

theorem sticky_nonFin : Sticky (NonFin : XF G → Prop) where
  add := nf_add
  sub := by
    intro a b h
    refine nf_add a _ ?_
    rcases h with h | h
    · exact Or.inl h
    · exact Or.inr (nf_neg b h)
  mul := nf_mul
  num := nf_div
  neg := nf_neg

theorem abs_nan {x : XF G} (h : x = .nan) : XF.abs x = .nan := by subst h; rfl
theorem abs_nonFin {x : XF G} (h : NonFin x) : NonFin (XF.abs x) := by
  cases x with
  | fin v hv => exact (h _ _ rfl).elim
  | pinf => exact nonFin_pinf
  | ninf => exact nonFin_pinf
  | nan => exact nonFin_nan
theorem sqrt_nan {x : XF G} (h : x = .nan) : XF.sqrt x = .nan := by subst h; rfl
theorem sqrt_nonFin {x : XF G} (h : NonFin x) : NonFin (XF.sqrt x) := by
  cases x with
  | fin v hv => exact (h _ _ rfl).elim
  | pinf => exact nonFin_pinf
  | ninf => exact nonFin_nan
  | nan => exact nonFin_nan

theorem not_lt_nan (x : XF G) : ¬ x < .nan := by
  rintro ⟨a, b, -, h, -⟩
  cases h
theorem not_nan_lt (x : XF G) : ¬ (.nan : XF G) < x := by
  rintro ⟨a, b, h, -, -⟩
  cases h

theorem zero_def : (0 : XF G) = .fin 0 ⟨G.rnd_zero, by rw [abs_zero]; linarith [G.two_le]⟩ := rfl
theorem one_def : (1 : XF G) = .fin 1 ⟨G.one, by rw [abs_one]; linarith [G.two_le]⟩ := rfl
theorem zero_ne_nan : (0 : XF G) ≠ .nan := fun h => by cases h
theorem fin_lt {x y : ℝ} {hx hy} : (XF.fin x hx : XF G) < XF.fin y hy ↔ x < y := Mach.lt_fin_iff
theorem zero_lt_one' : (0 : XF G) < 1 := fin_lt.2 one_pos

theorem zero_add' (x : XF G) : 0 + x = x := by
  cases x with
  | fin v hv =>
    change XF.ofReal G (0 + v) = _
    rw [zero_add, Mach.ofReal_fix hv]
  | pinf => rfl
  | ninf => rfl
  | nan => rfl
theorem add_zero' (x : XF G) : x + 0 = x := by
  cases x with
  | fin v hv =>
    change XF.ofReal G (v + 0) = _
    rw [add_zero, Mach.ofReal_fix hv]
  | pinf => rfl
  | ninf => rfl
  | nan => rfl
theorem one_mul' (x : XF G) : 1 * x = x := by
  cases x with
  | fin v hv =>
    change XF.ofReal G (1 * v) = _
    rw [one_mul, Mach.ofReal_fix hv]
  | pinf => change XF.infOf G 1 = _; unfold XF.infOf; rw [if_pos one_pos]
  | ninf => change XF.infOf G (-1) = _; unfold XF.infOf; rw [if_neg (by norm_num), if_pos (by norm_num)]
  | nan => rfl
theorem mul_one' (x : XF G) : x * 1 = x := by
  have := Mach.mul_comm' x (1 : XF G)
  rw [xmul, this]
  exact one_mul' x
theorem sub_zero' (x : XF G) : x - 0 = x := by
  have : XF.neg (0 : XF G) = 0 := by
    rw [zero_def]; unfold XF.neg; dsimp only; congr 1; exact neg_zero
  rw [xsub, this]
  exact add_zero' x

end TooN.Special
