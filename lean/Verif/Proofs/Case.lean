import Verif.Proofs.Exists
import Verif.Props.Geometry

/-! The standard case on which the theorems' hypotheses are shown to hold. -/

namespace Mrx
open Jax Spec Matrix Quad Props
namespace Case

/-- The map of the standard case: a shear and a stretch, `(2 x + y, 3 y, z)`. -/
noncomputable def map : V3 → V3 := fun y => !![2, 1, 0; 0, 3, 0; 0, 0, 1] *ᵥ y

theorem map_det (x : V3) : jacobianDeterminant map x = 6 := by
  unfold jacobianDeterminant map
  rw [jacfwd_mulVec]
  simp [det_fin_three]
  norm_num

theorem exists_D (polar dirichlet : Bool) :
    ∃ D, Admissible (6, 6, 4) (3, 2, 1) 4 ("clamped", "periodic", "periodic") map polar dirichlet D :=
  Admissible.exists _ _ _ (by norm_num) (by unfold DirOK; norm_num) (by unfold DirOK; norm_num) (by unfold DirOK; norm_num)
    (by intro _; simp) fun x => by rw [map_det]; norm_num

/-- The standard case: the sequence built from 6 × 6 × 4 splines of degrees 3, 2, 1 (clamped, periodic, periodic) with 4 points
per element on the sheared map, polar or not, Dirichlet or not. -/
noncomputable def D (polar dirichlet : Bool) : DeRham := Classical.choose (exists_D polar dirichlet)

theorem adm (polar dirichlet : Bool) :
    Admissible (6, 6, 4) (3, 2, 1) 4 ("clamped", "periodic", "periodic") map polar dirichlet (D polar dirichlet) :=
  Classical.choose_spec (exists_D polar dirichlet)

theorem seq_point {S : Seq ℝ} (h : Seq.mk? (6, 6, 4) (3, 2, 1) 4 ("clamped", "periodic", "periodic") = .ok S) : ∃ x, x ∈ S.Q.x := by
  have e : ∃ T : Seq ℝ, Seq.mk? (6, 6, 4) (3, 2, 1) 4 ("clamped", "periodic", "periodic") = .ok T ∧ ∃ a l, T.Q.x = a :: l :=
    ⟨_, rfl, _, _, rfl⟩
  obtain ⟨T, hT, a, l, e⟩ := e
  cases hT.symm.trans h
  exact ⟨a, by rw [e]; simp⟩

/-- The standard case has quadrature points. -/
theorem point (polar dirichlet : Bool) : ∃ x, x ∈ (D polar dirichlet).S.Q.x := by
  have h := (adm polar dirichlet).built
  obtain ⟨S, hS⟩ : ∃ S : Seq ℝ, Seq.mk? (6, 6, 4) (3, 2, 1) 4 ("clamped", "periodic", "periodic") = .ok S := ⟨_, rfl⟩
  obtain ⟨x, hx⟩ := seq_point hS
  unfold DeRham.mk? at h
  rw [hS] at h
  simp only [Except.ok.injEq] at h
  refine ⟨x, ?_⟩
  rw [← h]
  cases polar <;> exact hx

theorem compat (dirichlet : Bool) : Compatible (6, 6, 4) ("clamped", "periodic", "periodic") dirichlet := by
  constructor <;> simp

end Case
end Mrx
