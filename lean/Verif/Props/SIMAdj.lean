import Verif.Props.SIMLn
import Verif.Props.SE2
/-!
# C40: what the adjoints of SIM2 and SIM3 do compute

They compute the adjoint of the rigid part (rotation and translation) on all coordinates but the last.
-/
set_option linter.unusedSectionVars false
set_option linter.unusedSimpArgs false
namespace TooN.Lie
open Matrix

/-- all coordinates but the last of four -/
def pos3 (v : V 4) : V 3 := ![v 0, v 1, v 2]

/-- **C40** the first coordinates are those of the adjoint of the rigid part, for every transformation and argument: the
scale is ignored, and so is the last coordinate of the argument -/
theorem c40_adjoint_rigid (i3 : V 7) (i2 : V 4) (a : SIM 3) (b : SIM 2) (v : V 7) (u : V 4) :
    pos (sim3Adjoint i3 a v) = se3Adjoint ⟨a.R, a.t⟩ (pos v) ∧
    pos (sim3TrInvAdjoint i3 a v) = se3TrInvAdjoint ⟨a.R, a.t⟩ (pos v) ∧
    pos3 (sim2Adjoint i2 b u) = se2Adjoint ⟨b.R, b.t⟩ (pos3 u) := by
  refine ⟨?_, ?_, ?_⟩
  · funext k; simp [pos, sim3Adjoint, se3Adjoint]
  · funext k; simp [pos, sim3TrInvAdjoint, se3TrInvAdjoint]
  · funext k; fin_cases k <;> simp [pos3, sim2Adjoint, se2Adjoint]

/-- **C40** (partial) `trinvadjoint` is the inverse transpose of `adjoint` on the first six coordinates -/
theorem c40_trinvadjoint_partial (i j : V 7) (a : SIM 3) (h : IsRot a.R) (u v : V 7) :
    pos (sim3TrInvAdjoint i a u) ⬝ᵥ pos (sim3Adjoint j a v) = pos u ⬝ᵥ pos v := by
  rw [(c40_adjoint_rigid i 0 a ⟨1, 0, 1⟩ u 0).2.1, (c40_adjoint_rigid j 0 a ⟨1, 0, 1⟩ v 0).1]
  exact c38_trinvadjoint ⟨a.R, a.t⟩ h (pos u) (pos v)

/-- **C40** `SIM2::adjoint` (partial): for a transformation of scale one and coordinates without scaling, and if the unwritten
coordinate happens to be zero, it is the adjoint -/
theorem c40_sim2_adjoint_partial (i : V 4) (a : SIM 2) (h : IsRot a.R) (hs : a.s = 1) (v : V 4) (hv : v 3 = 0) (hi3 : i 3 = 0) :
    a.mat * (∑ k, v k • sim2Gen k) * a.mat⁻¹ = ∑ k, (sim2Adjoint i a v) k • sim2Gen k := by
  have ha : a.mat = (⟨a.R, a.t⟩ : SE 2).mat := by rw [SIM.mat, hs, one_smul]
  have e : ∀ x : V 4, x 3 = 0 → ∑ k, x k • sim2Gen k = ∑ k, (pos3 x) k • se2Gen k := by
    intro x hx; rw [sim2_gen_sum, se2_gen_sum, hx, zero_smul, add_zero]; rfl
  rw [ha, ← (c37_inverse (⟨a.R, a.t⟩ : SE 2) h).2.2, e v hv, e (sim2Adjoint i a v) hi3, c38_se2_adjoint_algebra _ h,
    (c40_adjoint_rigid 0 i ⟨1, 0, 1⟩ a 0 v).2.2]

/-- **C40** the matrix forms: the block without the last row and column is `Ad M Adᵀ` (`Ad⁻ᵀ M Ad⁻¹` for `trinvadjoint`) for the
rigid part, whatever uninitialised storage contains … -/
theorem c40_adjoint_matrix_rigid (ic ir : Fin 7 → V 7) (jc jr : Fin 4 → V 4) (a : SIM 3) (b : SIM 2) (m : M 7) (q : M 4) :
    (sim3AdjointM ic ir a m).submatrix Fin.castSucc Fin.castSucc =
      se3AdjointM ⟨a.R, a.t⟩ (m.submatrix Fin.castSucc Fin.castSucc) ∧
    (sim3TrInvAdjointM ic ir a m).submatrix Fin.castSucc Fin.castSucc =
      se3TrInvAdjointM ⟨a.R, a.t⟩ (m.submatrix Fin.castSucc Fin.castSucc) ∧
    (sim2AdjointM jc jr b q).submatrix Fin.castSucc Fin.castSucc =
      se2AdjointM ⟨b.R, b.t⟩ (q.submatrix Fin.castSucc Fin.castSucc) := by
  have k1 : ∀ (i : V 7) (v : V 7) (k : Fin 6), sim3Adjoint i a v k.castSucc = se3Adjoint ⟨a.R, a.t⟩ (pos v) k :=
    fun i v k => congrFun (c40_adjoint_rigid i 0 a b v 0).1 k
  have k2 : ∀ (i : V 7) (v : V 7) (k : Fin 6), sim3TrInvAdjoint i a v k.castSucc = se3TrInvAdjoint ⟨a.R, a.t⟩ (pos v) k :=
    fun i v k => congrFun (c40_adjoint_rigid i 0 a b v 0).2.1 k
  have k3 : ∀ (i : V 4) (v : V 4) (k : Fin 3), sim2Adjoint i b v k.castSucc = se2Adjoint ⟨b.R, b.t⟩ (fun l => v l.castSucc) k := by
    intro i v k
    have := congrFun (c40_adjoint_rigid 0 i a b 0 v).2.2 k
    have e : pos3 v = fun l : Fin 3 => v l.castSucc := by funext l; fin_cases l <;> rfl
    rw [← e, ← this]
    fin_cases k <;> rfl
  refine ⟨?_, ?_, ?_⟩
  · ext i j
    show sim3Adjoint (ir _) a _ j.castSucc = se3Adjoint _ _ j
    rw [k1]
    congr 1
    funext l
    exact k1 _ _ _
  · ext i j
    show sim3TrInvAdjoint (ir _) a _ j.castSucc = se3TrInvAdjoint _ _ j
    rw [k2]
    congr 1
    funext l
    exact k2 _ _ _
  · ext i j
    refine (k3 (jr i.castSucc) (fun j => sim2Adjoint (jc j) b (fun l => q l j) i.castSucc) j).trans ?_
    have : (fun l : Fin 3 => sim2Adjoint (jc l.castSucc) b (fun k => q k l.castSucc) i.castSucc) =
        fun l : Fin 3 => se2Adjoint ⟨b.R, b.t⟩ (fun k : Fin 3 => q k.castSucc l.castSucc) i := by
      funext l
      exact k3 _ _ _
    rw [this]
    rfl

/-- … and (defect) the last column is never written -/
theorem c40_adjoint_matrix_unset (ic ir : Fin 7 → V 7) (jc jr : Fin 4 → V 4) (a : SIM 3) (b : SIM 2) (m : M 7) (q : M 4)
    (i : Fin 7) (k : Fin 4) :
    sim3AdjointM ic ir a m i 6 = ir i 6 ∧ sim3TrInvAdjointM ic ir a m i 6 = ir i 6 ∧ sim2AdjointM jc jr b q k 3 = jr k 3 :=
  ⟨rfl, rfl, rfl⟩

end TooN.Lie
