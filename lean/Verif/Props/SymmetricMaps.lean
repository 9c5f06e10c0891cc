import Verif.Props.Symmetry
import Verif.Props.Mappings2
import Verif.Props.InitialFields
import Verif.Model.Perturbation

/-!
# C98: the maps and initial fields of the library that have a toroidal symmetry
-/

set_option linter.unusedSectionVars false
set_option linter.unusedVariables false

namespace Mrx.Props
open Spec Matrix Quad Mrx.DeRham Real Manufactured

/-- The rotation by the angle `φ` about the vertical axis, in the orientation of the maps. -/
noncomputable def rotZ (φ : ℝ) : M33 := !![cos φ, sin φ, 0; -sin φ, cos φ, 0; 0, 0, 1]

theorem rotZ_isRotation (φ : ℝ) : IsRotation (rotZ φ) where
  orth := by
    have e := sin_sq_add_cos_sq φ
    ext i j
    fin_cases i <;> fin_cases j <;> simp [rotZ, Matrix.mul_apply, Fin.sum_univ_three] <;> nlinarith
  det := by
    have e := sin_sq_add_cos_sq φ
    rw [det_fin_three]
    simp [rotZ]
    nlinarith

theorem rotZ_mulVec (φ : ℝ) (y : V3) : rotZ φ *ᵥ y = rotate φ y := by
  funext i
  fin_cases i <;> simp [rotZ, rotate, mulVec, dotProduct, Fin.sum_univ_three] <;> ring

theorem rotate_add (φ : ℝ) (y z : V3) : rotate φ (y + z) = rotate φ y + rotate φ z := by
  rw [← rotZ_mulVec, mulVec_add, rotZ_mulVec, rotZ_mulVec]

theorem rotate_smul (φ c : ℝ) (y : V3) : rotate φ (c • y) = c • rotate φ y := by
  rw [← rotZ_mulVec, mulVec_smul, rotZ_mulVec]

theorem symmetric_of_rotate {F : V3 → V3} {a φ : ℝ} (h : ∀ x : V3, F ![x 0, x 1, x 2 + a] = rotate φ (F x)) : IsSymmetric F a (rotZ φ) :=
  ⟨rotZ_isRotation φ, 0, fun x => by rw [h, rotZ_mulVec, add_zero]⟩

/-- **C98** the axisymmetric maps are carried to themselves by every toroidal angle. -/
theorem C98_axisymmetric_maps (eps kappa alpha R0 a : ℝ) (r : ℝ → ℝ) : IsSymmetric (toroidMap eps kappa R0) a (rotZ (2 * π * a)) ∧
    IsSymmetric (cerfonMap eps kappa alpha R0) a (rotZ (2 * π * a)) ∧ IsSymmetric (drumshapeMapModified r R0) a (rotZ (2 * π * a)) := by
  refine ⟨symmetric_of_rotate fun x => ?_, symmetric_of_rotate fun x => ?_, symmetric_of_rotate fun x => ?_⟩
  · funext i
    fin_cases i <;> simp [toroidMap, rotate, mul_add, cos_add, sin_add] <;> ring
  · funext i
    fin_cases i <;> simp [cerfonMap, rotate, mul_add, cos_add, sin_add] <;> ring
  · funext i
    fin_cases i <;> simp [drumshapeMapModified, rotate, mul_add, cos_add, sin_add] <;> ring

/-- **C98** the straight maps are carried to themselves by every shift along the axis. -/
theorem C98_straight_maps (a b h : ℝ) (r : ℝ → ℝ) : IsSymmetric polarMap a 1 ∧ IsSymmetric (cylinderMap b h) a 1 ∧ IsSymmetric (drumshapeMap r) a 1 := by
  refine ⟨⟨isRotation_one, ![0, -a, 0], fun x => ?_⟩, ⟨isRotation_one, ![0, 0, h * a], fun x => ?_⟩, ⟨isRotation_one, ![0, -a, 0], fun x => ?_⟩⟩
  · rw [one_mulVec]; funext i
    fin_cases i <;> simp [polarMap] <;> ring
  · rw [one_mulVec]; funext i
    fin_cases i <;> simp [cylinderMap] <;> ring
  · rw [one_mulVec]; funext i
    fin_cases i <;> simp [drumshapeMap] <;> ring

theorem norm3_rotate (φ : ℝ) (y : V3) : norm3 (rotate φ y) = norm3 y := by
  unfold norm3 rotate
  congr 1
  have e := sin_sq_add_cos_sq φ
  simp only [cons_val_zero, cons_val_one, cons_val_two, tail_cons, head_cons]
  linear_combination (y 0 ^ 2 + y 1 ^ 2) * e

theorem cross_rotate (φ : ℝ) (y z : V3) : crossProduct (rotate φ y) (rotate φ z) = rotate φ (crossProduct y z) := by
  have e := sin_sq_add_cos_sq φ
  funext i
  fin_cases i <;> simp [cross_apply, rotate]
  · ring
  · ring
  · linear_combination (y 0 * z 1 - y 1 * z 0) * e

section
variable {a n α : ℝ} {k : ℤ} (hk : n * a = k)
include hk

theorem phase_shift (ζ : ℝ) : cos (2 * π * n * (ζ + a) + α) = cos (2 * π * n * ζ + α) ∧ sin (2 * π * n * (ζ + a) + α) = sin (2 * π * n * ζ + α) := by
  have e : 2 * π * n * (ζ + a) + α = 2 * π * n * ζ + α + k * (2 * π) := by rw [← hk]; ring
  rw [e]
  exact ⟨cos_add_int_mul_two_pi _ _, sin_add_int_mul_two_pi _ _⟩

theorem helixX_shift (h κ ζ : ℝ) : helixX h κ α n (ζ + a) = rotate (2 * π * a) (helixX h κ α n ζ) := by
  obtain ⟨e1, e2⟩ := phase_shift (α := α) hk ζ
  unfold helixX
  rw [e1, e2]
  funext i
  fin_cases i <;> simp [rotate, mul_add, cos_add, sin_add] <;> ring

theorem helixX1_shift (A ζ : ℝ) : helixX1 A α n (ζ + a) = rotate (2 * π * a) (helixX1 A α n ζ) := by
  obtain ⟨e1, e2⟩ := phase_shift (α := α) hk ζ
  unfold helixX1
  rw [e1, e2]
  funext i
  fin_cases i <;> simp [rotate, mul_add, cos_add, sin_add] <;> ring

theorem helixX2_shift (A ζ : ℝ) : helixX2 A α n (ζ + a) = rotate (2 * π * a) (helixX2 A α n ζ) := by
  obtain ⟨e1, e2⟩ := phase_shift (α := α) hk ζ
  unfold helixX2
  rw [e1, e2]
  funext i
  fin_cases i <;> simp [rotate, mul_add, cos_add, sin_add] <;> ring

theorem helical_rotate (eps h κ : ℝ) (x : V3) : helicalMap eps h κ α n ![x 0, x 1, x 2 + a] = rotate (2 * π * a) (helicalMap eps h κ α n x) := by
  have eτ : helixTau h κ α n (x 2 + a) = rotate (2 * π * a) (helixTau h κ α n (x 2)) := by
    unfold helixTau
    rw [helix_deriv, helix_deriv, helixX1_shift hk, norm3_rotate, rotate_smul]
  have eν : helixNu1 h κ α n (x 2 + a) = rotate (2 * π * a) (helixNu1 h κ α n (x 2)) := by
    unfold helixNu1
    simp only []
    rw [helix_deriv2, helix_deriv2, helixX2_shift hk, norm3_rotate, ← rotate_smul, norm3_rotate, ← rotate_smul]
  have eν2 : helixNu2 h κ α n (x 2 + a) = rotate (2 * π * a) (helixNu2 h κ α n (x 2)) := by
    unfold helixNu2
    rw [eτ, eν, cross_rotate]
  unfold helicalMap
  simp only [cons_val_zero, cons_val_one, cons_val_two, tail_cons, head_cons]
  rw [helixX_shift hk, eν, eν2, rotate_add, rotate_add, rotate_smul, rotate_smul]

/-- **C98** the helix map has the symmetry of its field periods: it is carried to itself by every advance `a` with `nfp · a` an integer, in particular by `1 / nfp` and by one turn for an integer
`nfp`. -/
theorem C98_helical (eps h κ : ℝ) : IsSymmetric (helicalMap eps h κ α n) a (rotZ (2 * π * a)) := symmetric_of_rotate (helical_rotate hk eps h κ)

end

/-- **C98** (finding) for an `nfp` that is not an integer the axis of the helix map does not close after one turn, and no rotation about the vertical axis maps the device to itself then. -/
theorem C98_helical_open {eps h κ α n : ℝ} (hA : κ * h ≠ 0) : (∃ φ, ∀ x : V3, helicalMap eps h κ α n ![x 0, x 1, x 2 + 1] = rotate φ (helicalMap eps h κ α n x)) ↔ ∃ k : ℤ, n = k := by
  constructor
  · rintro ⟨φ, H⟩
    -- the height of the axis is preserved by rotations
    have H' : ∀ ζ : ℝ, sin (2 * π * n * (ζ + 1) + α) = sin (2 * π * n * ζ + α) := by
      intro ζ
      have := congrFun (H ![0, 0, ζ]) 2
      simp [helicalMap, helixX, rotate, hA] at this
      exact this
    by_cases hn : n = 0
    · exact ⟨0, by simp [hn]⟩
    · have hpi : (2 * π * n) ≠ 0 := by positivity
      have Hc : ∀ y : ℝ, sin (y + 2 * π * n) = sin y := by
        intro y
        have := H' ((y - α) / (2 * π * n))
        rw [show 2 * π * n * ((y - α) / (2 * π * n) + 1) + α = y + 2 * π * n by field_simp; ring, show 2 * π * n * ((y - α) / (2 * π * n)) + α = y by field_simp; ring] at this
        exact this
      have := Hc (π / 2)
      rw [sin_pi_div_two, add_comm, sin_add_pi_div_two, cos_eq_one_iff] at this
      obtain ⟨k, hk⟩ := this
      exact ⟨k, by
        have : (2 * π) * (n - k) = 0 := by linarith
        rcases mul_eq_zero.1 this with e | e
        · exact absurd e (by positivity)
        · linarith⟩
  · rintro ⟨k, rfl⟩
    exact ⟨2 * π * 1, helical_rotate (k := k) (by simp) eps h κ⟩

/-- **C98** the rotating ellipse covers one field period: one unit of the toroidal coordinate turns the device by `2π / nfp`. -/
theorem C98_ellipse {eps κ : ℝ} {nfp : ℤ} {F : V3 → V3} (h : rotatingEllipseMap eps κ nfp = .ok F) : IsSymmetric F 1 (rotZ (2 * π / nfp)) := by
  unfold rotatingEllipseMap at h
  split at h
  · cases h
  next hn =>
  split at h
  · cases h
  obtain rfl := Except.ok.inj h
  have hn' : (nfp : ℝ) ≠ 0 := by
    have : nfp ≠ 0 := by omega
    exact_mod_cast this
  have hpos : nfp > 0 := by omega
  refine symmetric_of_rotate fun x => ?_
  have e1 : ∀ d : ℝ, ellipseNu κ nfp ((x 2 + 1) / nfp + d) = ellipseNu κ nfp (x 2 / nfp + d) := by
    intro d
    unfold ellipseNu
    rw [show 2 * π * ((x 2 + 1) / nfp + d) * nfp = 2 * π * (x 2 / nfp + d) * nfp + 2 * π by field_simp; ring, cos_add_two_pi]
  have e2 := e1 0
  rw [add_zero, add_zero] at e2
  have e3 : 2 * π * ((x 2 + 1) / nfp) = 2 * π * (x 2 / nfp) + 2 * π / nfp := by field_simp
  funext i
  fin_cases i <;> simp [rotatingEllipseF, rotate, hpos, -one_div] <;> simp only [e1, e2, e3, cos_add, sin_add] <;> (first | ring1 | exact Or.inl (Or.inl trivial) | simp)

/-- **C98** the map built from the equilibrium solver's coordinates, if these are symmetric. One unit of the toroidal coordinate turns it by `π / nfp` (half a field period; see C64). -/
theorem C98_gvec {X1 X2 : V3 → Fin 1 → ℝ} {a : ℝ} (h1 : IsSymmetricScalar X1 a) (h2 : IsSymmetricScalar X2 a) (nfp : ℝ) :
    IsSymmetric (gvecStellaratorMap X1 X2 nfp) a (rotZ (π / nfp * a)) := by
  refine symmetric_of_rotate fun x => ?_
  unfold gvecStellaratorMap
  simp only []
  rw [h1 x, h2 x]
  funext i
  fin_cases i <;> simp [rotate, mul_add, cos_add, sin_add] <;> ring

/-! ## Initial fields -/

theorem solovev_rotate (κ τ φ : ℝ) (y : V3) : solovevB κ τ (rotate φ y) = rotate φ (solovevB κ τ y) := by
  have e := sin_sq_add_cos_sq φ
  have eR : rotate φ y 0 ^ 2 + rotate φ y 1 ^ 2 = y 0 ^ 2 + y 1 ^ 2 := by
    simp only [rotate, cons_val_zero, cons_val_one]
    linear_combination (y 0 ^ 2 + y 1 ^ 2) * e
  by_cases h : 0 < y 0 ^ 2 + y 1 ^ 2
  · rw [solovev_cart κ τ h, solovev_cart κ τ (by rw [eR]; exact h)]
    have eR' : rotate φ y 0 * rotate φ y 0 + rotate φ y 1 * rotate φ y 1 = y 0 * y 0 + y 1 * y 1 := by linarith [eR]
    unfold solovevCart
    rw [eR']
    funext i
    fin_cases i <;> simp [rotate] <;> ring
  · have h0 : y 0 ^ 2 + y 1 ^ 2 = 0 := le_antisymm (not_lt.1 h) (by positivity)
    unfold solovevB
    simp only []
    rw [eR, h0]
    funext i
    fin_cases i <;> simp [rotate]

theorem hopf_rotate (s ω1 ω2 φ : ℝ) (y : V3) : hopfB s ω1 ω2 (rotate φ y) = rotate φ (hopfB s ω1 ω2 y) := by
  have e := sin_sq_add_cos_sq φ
  have eR : rotate φ y 0 ^ 2 + rotate φ y 1 ^ 2 = y 0 ^ 2 + y 1 ^ 2 := by
    simp only [rotate, cons_val_zero, cons_val_one]
    linear_combination (y 0 ^ 2 + y 1 ^ 2) * e
  have e2 : rotate φ y 2 = y 2 := by simp [rotate]
  unfold hopfB
  simp only []
  rw [rotate_smul, eR, e2]
  congr 1
  funext i
  fin_cases i <;> simp [rotate] <;> ring

/-- **C98** the initial fields of the scripts are carried to themselves by every rotation about the vertical axis, so they have the symmetry of the device, whatever it is. -/
theorem C98_initial_fields {F : V3 → V3} {a φ : ℝ} (hF : ∀ x : V3, F ![x 0, x 1, x 2 + a] = rotate φ (F x)) (κ τ s ω1 ω2 : ℝ) :
    IsSymmetricField (fun p => solovevB κ τ (F p)) a (rotZ φ) ∧ IsSymmetricField (fun p => hopfB s ω1 ω2 (F p)) a (rotZ φ) :=
  ⟨fun x => by simp only []; rw [hF, solovev_rotate, rotZ_mulVec], fun x => by simp only []; rw [hF, hopf_rotate, rotZ_mulVec]⟩

/-- **C98** the island perturbation has the symmetry of its toroidal mode number: it is carried to itself by every advance `a` for which the device is and `tor · a` is an integer. -/
theorem C98_island {F : V3 → V3} {a : ℝ} {R : M33} (hF : IsSymmetric F a R) (loc width pol : ℝ) {tor : ℝ} {k : ℤ} (hk : tor * a = k) :
    IsSymmetricField (islandPert F loc width pol tor) a R := by
  intro x
  unfold islandPert
  simp only [cons_val_zero, cons_val_one, cons_val_two, tail_cons, head_cons]
  rw [jacfwd_shift hF, show 2 * π * (x 2 + a) * tor = 2 * π * x 2 * tor + k * (2 * π) by rw [← hk]; ring, sin_add_int_mul_two_pi, mulVec_smul]
  congr 1

/-! ## A concrete case -/

/-- The hypotheses are met by the sequence on the unit cube, which every shift maps to itself. -/
theorem C98_example (polar dirichlet : Bool) : ∃ D, Admissible (5, 6, 4) (3, 2, 1) 4 ("clamped", "periodic", "periodic") (fun y => y) polar dirichlet D ∧
    ("clamped", "periodic", "periodic").2.2 = "periodic" ∧ ((5, 6, 4) : Nat × Nat × Nat).2.2 ≤ ((5, 6, 4) : Nat × Nat × Nat).2.1 ∧
    IsSymmetric (fun y => y) (((1 : Nat) : ℝ) / (4 : Nat)) 1 ∧ IsSymmetric (fun y => y) 1 1 := by
  obtain ⟨D, hD⟩ := Admissible.example polar dirichlet
  have hs : ∀ a : ℝ, IsSymmetric (fun y => y) a 1 := fun a => ⟨isRotation_one, ![0, 0, a], fun x => by
    rw [one_mulVec]; funext i; fin_cases i <;> simp⟩
  exact ⟨D, hD, rfl, by norm_num, hs _, hs _⟩

end Mrx.Props
