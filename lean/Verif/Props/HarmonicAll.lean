import Verif.Proofs.Case
import Verif.Proofs.AllBetti3
import Verif.Props.HarmonicNeg

/-!
# C73 for all resolutions: the cohomology of the complex the code builds

The numbers of harmonic fields for every number of splines in the three directions, and the exact sizes for which they are the Betti numbers of
the domain.
-/

set_option linter.unusedSectionVars false
set_option linter.unusedVariables false

namespace Mrx.Props
open Finset Spec Matrix DeRham Module

/-- Numbers of harmonic fields of the four degrees, for `nr` radial and `nt` poloidal splines. -/
def codeBetti (polar dirichlet : Bool) (nr nt : Nat) : Nat × Nat × Nat × Nat :=
  match polar, dirichlet with
  | false, false => if nr ≤ nt then (1, 2, 1, 0) else (2, 5, 4, 1)
  | false, true => (0, 1, 2, 1)
  | true, false => if nr = nt then (1, 1, 0, 0) else if nr < nt then (1, 2, 2, 1) else (2, 4, 3, 1)
  | true, true => if nr ≤ nt then (0, 0, 1, 1) else (1, 2, 2, 1)

/-- The sizes for which the numbers of harmonic fields are right. -/
def RightSizes (polar dirichlet : Bool) (nr nt : Nat) : Prop :=
  match polar, dirichlet with
  | false, false => nr ≤ nt
  | false, true => True
  | true, false => nr = nt
  | true, true => nr ≤ nt

section
variable {ns ps : Nat × Nat × Nat} {q : Nat} {types : String × String × String} {F : V3 → V3} {polar dirichlet : Bool} {D : DeRham}

/-- Closed modulo exact forms for all resolutions. -/
theorem closed_dims_all (h : Admissible ns ps q types F polar dirichlet D)
    (ty : Toroidal types) :
    finrank ℝ (LinearMap.ker D.strongGrad.mulVecLin) = (codeBetti polar dirichlet ns.1 ns.2.1).1 ∧
    finrank ℝ (LinearMap.ker D.strongCurl.mulVecLin) = D.strongGrad.rank + (codeBetti polar dirichlet ns.1 ns.2.1).2.1 ∧
    finrank ℝ (LinearMap.ker D.strongDiv.mulVecLin) = D.strongCurl.rank + (codeBetti polar dirichlet ns.1 ns.2.1).2.2.1 ∧
    D.m3 = D.strongDiv.rank + (codeBetti polar dirichlet ns.1 ns.2.1).2.2.2 := by
  have w := h.cw ty.r ty.t ty.z
  have s := C73_scalar_harmonics h ty.r ty.t ty.z
  have e : LinearMap.ker D.dd0.mulVecLin = LinearMap.ker D.strongGrad.mulVecLin := by
    ext v
    simp only [LinearMap.mem_ker, mulVecLin_apply]; exact (C34_kernels_are_harmonic h).1 v
  rw [e] at s
  have b3 := w.rank_div_all
  have b1 := w.ker_curl_all
  have c0 := finrank_C0 (polar := polar) (dir := dirichlet) w.hN w.hM w.hp
  have c1 := finrank_C1 (polar := polar) (dir := dirichlet) w.hN w.hM w.hp
  rw [finrank_K0 w.hN w.hM w.hp, finrank_K1 w.hN w.hM w.hp] at b1
  have eu := w.euler
  have n0 := nullity D.strongGrad
  have n1 := nullity D.strongCurl
  have n2 := nullity D.strongDiv
  clear w e h
  generalize ns.1 = N at *
  generalize ns.2.1 = M at *
  generalize D.strongGrad.rank = r0 at *
  generalize D.strongCurl.rank = r1 at *
  generalize D.strongDiv.rank = r2 at *
  generalize finrank ℝ (LinearMap.ker D.strongGrad.mulVecLin) = z0 at *
  generalize finrank ℝ (LinearMap.ker D.strongCurl.mulVecLin) = z1 at *
  generalize finrank ℝ (LinearMap.ker D.strongDiv.mulVecLin) = z2 at *
  generalize D.m0 = m0 at *
  generalize D.m1 = m1 at *
  generalize D.m2 = m2 at *
  generalize D.m3 = m3 at *
  generalize finrank ℝ (Submodule.map (Submodule.map (Rad N M) (F0 polar dirichlet N)).mkQ (G1 polar N)) = f0 at *
  generalize finrank ℝ (Submodule.map (Submodule.map (Rad N M) (F1 polar dirichlet N)).mkQ (G1 polar N)) = f1 at *
  have t0 : betti false false 0 = 1 := rfl
  have t1 : betti false true 0 = 0 := rfl
  have t2 : betti true false 0 = 1 := rfl
  have t3 : betti true true 0 = 0 := rfl
  rcases polar with _ | _ <;> rcases dirichlet with _ | _ <;>
    simp only [k0, k1, t0, t1, t2, t3, codeBetti, Bool.false_eq_true, if_false, if_true, true_and, false_and, or_true, or_false,
      and_true, and_false, reduceCtorEq, true_or, false_or] at s b1 b3 c0 c1 ⊢ <;>
    (try split_ifs at *) <;> (try exfalso; omega) <;> refine ⟨?_, ?_, ?_, ?_⟩ <;> (try dsimp only) <;> omega

/-- **C73** for every resolution: the numbers of independent harmonic fields of the four degrees. They do not depend on the map, the degrees of the
splines, the quadrature or the number of toroidal splines. -/
theorem C73_harmonic_dimensions (h : Admissible ns ps q types F polar dirichlet D) (ty : Toroidal types) :
    finrank ℝ (LinearMap.ker D.dd0.mulVecLin) = (codeBetti polar dirichlet ns.1 ns.2.1).1 ∧
    finrank ℝ (LinearMap.ker D.dd1.mulVecLin) = (codeBetti polar dirichlet ns.1 ns.2.1).2.1 ∧
    finrank ℝ (LinearMap.ker D.dd2.mulVecLin) = (codeBetti polar dirichlet ns.1 ns.2.1).2.2.1 ∧
    finrank ℝ (LinearMap.ker D.dd3.mulVecLin) = (codeBetti polar dirichlet ns.1 ns.2.1).2.2.2 := by
  obtain ⟨a0, a1, a2, a3⟩ := closed_dims_all h ty
  exact harmonic_dims_of h a0 a1 a2 a3

theorem codeBetti_right {polar dirichlet : Bool} {nr nt : Nat} (hs : RightSizes polar dirichlet nr nt) :
    codeBetti polar dirichlet nr nt = (betti polar dirichlet 0, betti polar dirichlet 1, betti polar dirichlet 2, betti polar dirichlet 3) := by
  cases polar <;> cases dirichlet <;> simp only [RightSizes] at hs <;> simp only [codeBetti]
  · rw [if_pos hs]; rfl
  · rfl
  · rw [if_pos hs]; rfl
  · rw [if_pos hs]; rfl

theorem codeBetti_wrong {polar dirichlet : Bool} {nr nt : Nat} (hs : ¬ RightSizes polar dirichlet nr nt) :
    (codeBetti polar dirichlet nr nt).2.1 ≠ betti polar dirichlet 1 := by
  have t0 : betti false false 1 = 2 := rfl
  have t2 : betti true false 1 = 1 := rfl
  have t3 : betti true true 1 = 0 := rfl
  cases polar <;> cases dirichlet <;> simp only [RightSizes] at hs <;> simp only [codeBetti]
  · rw [if_neg hs, t0]; decide
  · simp at hs
  · rw [if_neg hs, t2]; split_ifs <;> decide
  · rw [if_neg hs, t3]; decide

/-- **C73** the harmonic fields are those topology demands (the Betti numbers of the domain: absolute ones without, relative ones with Dirichlet
conditions) exactly for these numbers of radial and poloidal splines: at most as many radial as poloidal ones; equally many on a polar domain without
Dirichlet conditions; no condition on a toroidal shell with Dirichlet conditions. -/
theorem C73_topology_iff (h : Admissible ns ps q types F polar dirichlet D) (ty : Toroidal types) :
    (finrank ℝ (LinearMap.ker D.dd0.mulVecLin) = betti polar dirichlet 0 ∧ finrank ℝ (LinearMap.ker D.dd1.mulVecLin) = betti polar dirichlet 1 ∧
      finrank ℝ (LinearMap.ker D.dd2.mulVecLin) = betti polar dirichlet 2 ∧ finrank ℝ (LinearMap.ker D.dd3.mulVecLin) = betti polar dirichlet 3) ↔
    RightSizes polar dirichlet ns.1 ns.2.1 := by
  obtain ⟨a0, a1, a2, a3⟩ := C73_harmonic_dimensions h ty
  constructor
  · rintro ⟨_, b, _, _⟩
    by_contra hs
    exact codeBetti_wrong hs (a1.symm.trans b)
  · intro hs
    rw [codeBetti_right hs] at a0 a1 a2 a3
    exact ⟨a0, a1, a2, a3⟩

/-- Case: the standard case. -/
example (polar dirichlet : Bool) := C73_topology_iff (Case.adm polar dirichlet) ⟨rfl, by decide, by decide⟩

/-- The Betti numbers, for the right sizes. -/
theorem right_dims (h : Admissible ns ps q types F polar dirichlet D) (ty : Toroidal types) (hs : RightSizes polar dirichlet ns.1 ns.2.1) :
    finrank ℝ (LinearMap.ker D.dd0.mulVecLin) = betti polar dirichlet 0 ∧ finrank ℝ (LinearMap.ker D.dd1.mulVecLin) = betti polar dirichlet 1 ∧
    finrank ℝ (LinearMap.ker D.dd2.mulVecLin) = betti polar dirichlet 2 ∧ finrank ℝ (LinearMap.ker D.dd3.mulVecLin) = betti polar dirichlet 3 :=
  (C73_topology_iff h ty).mpr hs

theorem right_closed (h : Admissible ns ps q types F polar dirichlet D) (ty : Toroidal types) (hs : RightSizes polar dirichlet ns.1 ns.2.1) :
    finrank ℝ (LinearMap.ker D.strongGrad.mulVecLin) = betti polar dirichlet 0 ∧
    finrank ℝ (LinearMap.ker D.strongCurl.mulVecLin) = D.strongGrad.rank + betti polar dirichlet 1 ∧
    finrank ℝ (LinearMap.ker D.strongDiv.mulVecLin) = D.strongCurl.rank + betti polar dirichlet 2 ∧
    D.m3 = D.strongDiv.rank + betti polar dirichlet 3 := by
  have := closed_dims_all h ty
  rwa [codeBetti_right hs] at this

/-- **C73** which of the linear systems `solve(dd_k, b)` have a unique solution for every right hand side, for every resolution. In all other cases the
matrix is singular. -/
theorem C73_laplacians_invertible_iff (h : Admissible ns ps q types F polar dirichlet D) (ty : Toroidal types) :
    (IsUnit D.dd0.det ↔ dirichlet = true ∧ (polar = true → ns.1 ≤ ns.2.1)) ∧
    (IsUnit D.dd1.det ↔ polar = true ∧ dirichlet = true ∧ ns.1 ≤ ns.2.1) ∧
    (IsUnit D.dd2.det ↔ polar = true ∧ dirichlet = false ∧ ns.1 = ns.2.1) ∧
    (IsUnit D.dd3.det ↔ dirichlet = false ∧ ns.1 ≤ ns.2.1 ∧ (polar = true → ns.1 = ns.2.1)) := by
  obtain ⟨a0, a1, a2, a3⟩ := C73_harmonic_dimensions h ty
  rw [unit_iff_ker, unit_iff_ker, unit_iff_ker, unit_iff_ker, a0, a1, a2, a3]
  generalize ns.1 = N
  generalize ns.2.1 = M
  cases polar <;> cases dirichlet <;> simp only [codeBetti] <;> (try split_ifs) <;> simp <;> omega

/-- Case: the standard case. -/
example (polar dirichlet : Bool) := C73_laplacians_invertible_iff (Case.adm polar dirichlet) ⟨rfl, by decide, by decide⟩

/-- **C73** existence of potentials, for every resolution: exactly which closed fields have potentials. Curl-free 1-forms are gradients on polar domains
with Dirichlet conditions, divergence-free 2-forms are curls on polar domains without, and densities are divergences without Dirichlet conditions, under
the stated conditions on the sizes, and in no other case. -/
theorem C73_potentials_iff (h : Admissible ns ps q types F polar dirichlet D) (ty : Toroidal types) :
    ((∀ A, D.strongCurl *ᵥ A = 0 → ∃ φ, D.strongGrad *ᵥ φ = A) ↔ polar = true ∧ dirichlet = true ∧ ns.1 ≤ ns.2.1) ∧
    ((∀ B, D.strongDiv *ᵥ B = 0 → ∃ A, D.strongCurl *ᵥ A = B) ↔ polar = true ∧ dirichlet = false ∧ ns.1 = ns.2.1) ∧
    ((∀ ρ, ∃ B, D.strongDiv *ᵥ B = ρ) ↔ dirichlet = false ∧ ns.1 ≤ ns.2.1 ∧ (polar = true → ns.1 = ns.2.1)) := by
  obtain ⟨a0, a1, a2, a3⟩ := closed_dims_all h ty
  obtain ⟨i0, i1, i2, i3⟩ := C73_laplacians_invertible_iff h ty
  obtain ⟨b0, b1, b2, b3⟩ := C73_harmonic_dimensions h ty
  obtain ⟨cg, dc, _, _⟩ := C33_exactness h
  rw [← i1, ← i2, ← i3, unit_iff_ker, unit_iff_ker, unit_iff_ker, b1, b2, b3]
  have mono : ∀ {n m l : Nat} {A : Matrix (Fin m) (Fin n) ℝ} {B : Matrix (Fin l) (Fin m) ℝ},
      (∀ w, B *ᵥ w = 0 → ∃ x, A *ᵥ x = w) → finrank ℝ (LinearMap.ker B.mulVecLin) ≤ A.rank := by
    intro n m l A B hh
    refine Submodule.finrank_mono (t := LinearMap.range A.mulVecLin) fun w hw => ?_
    obtain ⟨x, hx⟩ := hh w hw
    exact ⟨x, hx⟩
  refine ⟨⟨fun hh => ?_, fun hh => range_eq_ker_of cg (by rw [a1, hh, add_zero])⟩,
    ⟨fun hh => ?_, fun hh => range_eq_ker_of dc (by rw [a2, hh, add_zero])⟩, ⟨fun hh => ?_, fun hh ρ => ?_⟩⟩
  · have := mono hh; omega
  · have := mono hh; omega
  · have e := mono (A := D.strongDiv) (B := (0 : Matrix (Fin 0) (Fin D.m3) ℝ)) fun w _ => hh w
    have := nullity (0 : Matrix (Fin 0) (Fin D.m3) ℝ)
    rw [rank_zero, zero_add] at this
    omega
  · refine range_eq_ker_of (B := (0 : Matrix (Fin 0) (Fin D.m3) ℝ)) (by simp) ?_ ρ (by simp)
    have := nullity (0 : Matrix (Fin 0) (Fin D.m3) ℝ)
    rw [rank_zero, zero_add] at this
    omega

/-- Case: the standard case. -/
example (polar dirichlet : Bool) := C73_potentials_iff (Case.adm polar dirichlet) ⟨rfl, by decide, by decide⟩

/-- **C73** on polar domains with Dirichlet conditions (and at most as many radial as poloidal splines, otherwise the potential is not defined) the vector
potential of any magnetic field is in Coulomb gauge, and what the curl of the potential misses of a divergence-free field is exactly its harmonic
part. -/
theorem C73_magnetic_decomposition (h : Admissible ns ps q types F true true D) (hs : ns.1 ≤ ns.2.1) (B : Fin D.m2 → ℝ) :
    D.weakDiv *ᵥ D.vectorPotential B = 0 ∧ D.weakCurl *ᵥ D.harmonicComponent B = 0 ∧
    B = D.strongCurl *ᵥ D.vectorPotential B + D.harmonicComponent B ∧
    (D.strongDiv *ᵥ B = 0 → D.dd2 *ᵥ D.harmonicComponent B = 0) := by
  obtain ⟨a, b, c, _⟩ := h.polar rfl
  obtain ⟨i0, i1, _, _⟩ := C73_laplacians_invertible_iff h ⟨a, by rw [b]; decide, c⟩
  exact magnetic_decomposition_of h (i0.mpr ⟨rfl, fun _ => hs⟩) (i1.mpr ⟨rfl, rfl, hs⟩) B

/-- Case: the standard case. -/
example := C73_magnetic_decomposition (Case.adm true true) (le_refl _)

/-- **C47** the vector potential of the curl of any 1-form has that curl. -/
theorem C47_potential_polar (h : Admissible ns ps q types F true true D) (hs : ns.1 ≤ ns.2.1) (e : Fin D.m1 → ℝ) :
    D.strongCurl *ᵥ D.vectorPotential (D.strongCurl *ᵥ e) = D.strongCurl *ᵥ e := by
  obtain ⟨a, b, c, _⟩ := h.polar rfl
  exact C47_potential_of_invertible h ((C73_laplacians_invertible_iff h ⟨a, by rw [b]; decide, c⟩).2.1.mpr ⟨rfl, rfl, hs⟩) e

/-- Case: the standard case. -/
example := C47_potential_polar (Case.adm true true) (le_refl _)

/-- **C47** the exact domain: the system `solve(dd1, ·)` behind the recorded helicity has one solution for every right-hand side exactly for
polar Dirichlet sequences with at most as many radial as poloidal splines. -/
theorem C47_wellposed_iff (h : Admissible ns ps q types F polar dirichlet D) (ty : Toroidal types) :
    (∀ b, ∃! A, D.dd1 *ᵥ A = b) ↔ polar = true ∧ dirichlet = true ∧ ns.1 ≤ ns.2.1 := by
  rw [← (C73_laplacians_invertible_iff h ty).2.1]
  constructor
  · intro hb
    rw [unit_iff_ker, Submodule.finrank_eq_zero, LinearMap.ker_eq_bot']
    intro v hv
    obtain ⟨A, -, hA⟩ := hb 0
    rw [hA v hv, hA 0 (Matrix.mulVec_zero _)]
  · intro hu b
    have hi : D.dd1 * D.dd1⁻¹ = 1 := Matrix.mul_nonsing_inv _ hu
    have hi' : D.dd1⁻¹ * D.dd1 = 1 := Matrix.nonsing_inv_mul _ hu
    refine ⟨D.dd1⁻¹ *ᵥ b, by simp only [Matrix.mulVec_mulVec, hi, Matrix.one_mulVec], ?_⟩
    intro A hA
    rw [← hA, Matrix.mulVec_mulVec, hi', Matrix.one_mulVec]

/-- Case: the standard case. -/
example (polar dirichlet : Bool) := C47_wellposed_iff (Case.adm polar dirichlet) ⟨rfl, by decide, by decide⟩

/-- **C47** as it would be if there were no condition on the sequence: the linear system that defines the helicity always has one solution. -/
def C47_wellposed_statement : Prop :=
  ∀ (ns ps : Nat × Nat × Nat) (q : Nat) (types : String × String × String) (F : V3 → V3) (polar dirichlet : Bool) (D : DeRham),
    Admissible ns ps q types F polar dirichlet D → Compatible ns types dirichlet → IsUnit D.dd1.det

/-- **C47** (finding) it does not: `solve(dd1, ·)` is singular on toroidal shells with Dirichlet conditions. -/
theorem C47_wellposed_false : ¬ C47_wellposed_statement := by
  intro H
  obtain ⟨D, h⟩ := Admissible.example false true
  have hc : Compatible (5, 6, 4) ("clamped", "periodic", "periodic") true := by constructor <;> simp
  have := (C73_laplacians_invertible_iff h ⟨rfl, by decide, by decide⟩).2.1.mp (H _ _ _ _ _ _ _ _ h hc)
  simp at this

/-- The right sizes from `Compatible`. -/
theorem Compatible.right (h : Admissible ns ps q types F polar dirichlet D) (hc : Compatible ns types dirichlet) :
    RightSizes polar dirichlet ns.1 ns.2.1 := by
  have hp := h.polar
  rcases hc.nr with e | ⟨e, f⟩
  · cases polar <;> cases dirichlet <;> simp only [RightSizes] <;> omega
  · subst e
    cases polar <;> simp only [RightSizes]
    have := hp rfl
    omega

/-- non-vacuity: wrong and right sizes occur in all four topological cases but one, for which all sizes are right. -/
example : ∀ nr nt, 4 ≤ nr → 4 ≤ nt → nr ≤ 1000 → nt ≤ 1000 → ∀ polar dirichlet, ∃ D,
    Admissible (nr, nt, 4) (3, 2, 1) 4 ("clamped", "periodic", "periodic") (fun y => y) polar dirichlet D :=
  fun nr nt h1 h2 h3 h4 polar dirichlet => Admissible.exists _ _ _ (by norm_num) (by unfold DirOK; norm_num; omega) (by unfold DirOK; norm_num; omega)
    (by unfold DirOK; norm_num) (by intro _; simp; omega) fun x => by rw [jacobianDeterminant_id]; norm_num

/-- Ten radial and six poloidal splines on a polar domain without boundary conditions: two scalar fields, four, three and one instead of one, one, none
and none. -/
example : ∃ D, Admissible (10, 6, 4) (3, 2, 1) 4 ("clamped", "periodic", "periodic") (fun y => y) true false D ∧
    finrank ℝ (LinearMap.ker D.dd0.mulVecLin) = 2 ∧ finrank ℝ (LinearMap.ker D.dd1.mulVecLin) = 4 ∧
    finrank ℝ (LinearMap.ker D.dd2.mulVecLin) = 3 ∧ finrank ℝ (LinearMap.ker D.dd3.mulVecLin) = 1 := by
  obtain ⟨D, h⟩ : ∃ D, Admissible (10, 6, 4) (3, 2, 1) 4 ("clamped", "periodic", "periodic") (fun y => y) true false D :=
    Admissible.exists _ _ _ (by norm_num) (by unfold DirOK; norm_num) (by unfold DirOK; norm_num)
    (by unfold DirOK; norm_num) (by intro _; simp) fun x => by rw [jacobianDeterminant_id]; norm_num
  exact ⟨D, h, C73_harmonic_dimensions h ⟨rfl, by decide, by decide⟩⟩

end
end Mrx.Props
