import Verif.Proofs.Case
import Verif.Props.Poisson
import Verif.Props.ApproxVector
import Verif.Proofs.NormBounds

/-!
# C101: the computed Poisson solutions are (quasi-)optimal, and how far they are from the exact ones
-/

set_option linter.unusedSectionVars false
set_option linter.unusedVariables false

namespace Mrx.Props
open Finset Spec Matrix DeRham

section
variable {ns ps : Nat × Nat × Nat} {q : Nat} {types : String × String × String} {F : V3 → V3} {polar dirichlet : Bool} {D : DeRham}

theorem l2_nonneg {d : Nat} (h : Admissible ns ps q types F polar dirichlet D) (g : V3 → Fin d → ℝ) : 0 ≤ l2Product g g D.S.Q F := by
  rw [h.l2_eq]
  refine sum_nonneg fun j hj => mul_nonneg (Finset.sum_nonneg fun i _ => mul_self_nonneg _) (mul_nonneg ?_ (w_pos h.core (mem_range.mp hj)).le)
  exact le_trans (by norm_num) (h.regular _ (h.pointAt (mem_range.mp hj)).2)

theorem l2_smul_left {d : Nat} (t : ℝ) (f g : V3 → Fin d → ℝ) (Q : Quad.Rule ℝ) (F : V3 → V3) :
    l2Product (fun x => t • f x) g Q F = t * l2Product f g Q F := by
  unfold l2Product
  rw [Finset.mul_sum]
  refine Finset.sum_congr rfl fun i _ => ?_
  rw [Finset.mul_sum]
  refine Finset.sum_congr rfl fun j _ => ?_
  simp only [Pi.smul_apply, smul_eq_mul]; ring

theorem l2_comm {d : Nat} (f g : V3 → Fin d → ℝ) (Q : Quad.Rule ℝ) (F : V3 → V3) : l2Product f g Q F = l2Product g f Q F := by
  unfold l2Product
  exact Finset.sum_congr rfl fun i _ => Finset.sum_congr rfl fun j _ => by ring

/-- Cauchy-Schwarz for the quadrature product. -/
theorem l2_cauchy {d : Nat} (h : Admissible ns ps q types F polar dirichlet D) (f g : V3 → Fin d → ℝ) :
    l2Product f g D.S.Q F ^ 2 ≤ l2Product f f D.S.Q F * l2Product g g D.S.Q F := by
  have key : ∀ t : ℝ, 0 ≤ l2Product f f D.S.Q F * (t * t) + -(2 * l2Product f g D.S.Q F) * t + l2Product g g D.S.Q F := by
    intro t
    have := l2_nonneg h (fun x => g x - t • f x)
    rw [l2_sub g (fun x => t • f x), l2_smul_left, l2_smul_left, l2_comm f (fun x => t • f x), l2_smul_left] at this
    linarith
  have := discrim_le_zero key
  unfold discrim at this
  nlinarith

/-- **C101** For every vector field `G` (think of the exact gradient) the distance to the gradient of any other discrete function differs
from the distance to the computed one by the squared norm of the difference and the weak residual of `G`. -/
theorem C101_poisson_error_identity (h : Admissible ns ps q types F polar dirichlet D) (ty : Toroidal types)
    (hd : dirichlet = true) (hs : polar = true → ns.1 ≤ ns.2.1) (f : V3 → Fin 1 → ℝ) (G : V3 → V3) (v : Fin D.m0 → ℝ) :
    l2Product (fun x => G x - D.phys1 (D.strongGrad *ᵥ v) x) (fun x => G x - D.phys1 (D.strongGrad *ᵥ v) x) D.S.Q F =
      l2Product (fun x => G x - D.phys1 (D.strongGrad *ᵥ D.poisson0 f) x) (fun x => G x - D.phys1 (D.strongGrad *ᵥ D.poisson0 f) x) D.S.Q F
      + l2Product (D.phys1 (D.strongGrad *ᵥ (v - D.poisson0 f))) (D.phys1 (D.strongGrad *ᵥ (v - D.poisson0 f))) D.S.Q F
      + 2 * (l2Product (D.phys0 (v - D.poisson0 f)) f D.S.Q F - l2Product (D.phys1 (D.strongGrad *ᵥ (v - D.poisson0 f))) G D.S.Q F) := by
  have hw := (C78_poisson_weak_form h ty hd hs f _).mp rfl
  obtain ⟨u, hu⟩ : ∃ u, u = D.poisson0 f := ⟨_, rfl⟩
  rw [← hu] at hw ⊢
  have m1 := (C31_mass_matrices_definite h).2.1
  rw [← hw (v - u), l2_sub, l2_sub]
  simp only [← h.M1_l2, ← h.proj1_l2]
  simp only [mulVec_sub, dotProduct_sub, sub_dotProduct]
  rw [sym_dot m1.1 (D.strongGrad *ᵥ u) (D.strongGrad *ᵥ v)]
  ring

/-- Case: the standard case. -/
example (polar : Bool) := C101_poisson_error_identity (Case.adm polar true) ⟨rfl, by decide, by decide⟩ rfl (fun _ => by norm_num)

/-- **C101** Best approximation in the energy norm: if `G` satisfies the weak equation `(G, grad v) = (f, v)` for all discrete `v`, then
no discrete function has a gradient closer to `G` than the computed solution (Pythagoras). -/
theorem C101_poisson_best (h : Admissible ns ps q types F polar dirichlet D) (ty : Toroidal types)
    (hd : dirichlet = true) (hs : polar = true → ns.1 ≤ ns.2.1) (f : V3 → Fin 1 → ℝ) (G : V3 → V3)
    (hG : ∀ v, l2Product (D.phys1 (D.strongGrad *ᵥ v)) G D.S.Q F = l2Product (D.phys0 v) f D.S.Q F) (v : Fin D.m0 → ℝ) :
    l2Product (fun x => G x - D.phys1 (D.strongGrad *ᵥ v) x) (fun x => G x - D.phys1 (D.strongGrad *ᵥ v) x) D.S.Q F =
      l2Product (fun x => G x - D.phys1 (D.strongGrad *ᵥ D.poisson0 f) x) (fun x => G x - D.phys1 (D.strongGrad *ᵥ D.poisson0 f) x) D.S.Q F
      + l2Product (D.phys1 (D.strongGrad *ᵥ (v - D.poisson0 f))) (D.phys1 (D.strongGrad *ᵥ (v - D.poisson0 f))) D.S.Q F := by
  rw [C101_poisson_error_identity h ty hd hs f G v, hG, sub_self, mul_zero, add_zero]

/-- Case: the standard case; the gradient of the discrete solution itself satisfies the weak equation. -/
example (polar : Bool) (f : V3 → Fin 1 → ℝ) := C101_poisson_best (Case.adm polar true) ⟨rfl, by decide, by decide⟩ rfl (fun _ => by norm_num) f _
  ((C78_poisson_weak_form (Case.adm polar true) ⟨rfl, by decide, by decide⟩ rfl (fun _ => by norm_num) f _).mp rfl)

/-- **C101** Quadrature and other consistency errors: if the weak equation holds for `G` up to `√K` times the energy norm of the test function,
the squared energy error exceeds the best possible one by at most `K`. -/
theorem C101_poisson_quasi_best (h : Admissible ns ps q types F polar dirichlet D) (ty : Toroidal types)
    (hd : dirichlet = true) (hs : polar = true → ns.1 ≤ ns.2.1) (f : V3 → Fin 1 → ℝ) (G : V3 → V3) (K : ℝ) (hK : 0 ≤ K)
    (hG : ∀ v, (l2Product (D.phys1 (D.strongGrad *ᵥ v)) G D.S.Q F - l2Product (D.phys0 v) f D.S.Q F) ^ 2 ≤
      K * l2Product (D.phys1 (D.strongGrad *ᵥ v)) (D.phys1 (D.strongGrad *ᵥ v)) D.S.Q F) (v : Fin D.m0 → ℝ) :
    l2Product (fun x => G x - D.phys1 (D.strongGrad *ᵥ D.poisson0 f) x) (fun x => G x - D.phys1 (D.strongGrad *ᵥ D.poisson0 f) x) D.S.Q F ≤
      l2Product (fun x => G x - D.phys1 (D.strongGrad *ᵥ v) x) (fun x => G x - D.phys1 (D.strongGrad *ᵥ v) x) D.S.Q F + K := by
  have e := C101_poisson_error_identity h ty hd hs f G v
  have c := hG (v - D.poisson0 f)
  have s := l2_nonneg h (D.phys1 (D.strongGrad *ᵥ (v - D.poisson0 f)))
  rw [e]
  generalize l2Product (D.phys1 (D.strongGrad *ᵥ (v - D.poisson0 f))) (D.phys1 (D.strongGrad *ᵥ (v - D.poisson0 f))) D.S.Q F = S at *
  generalize l2Product (D.phys1 (D.strongGrad *ᵥ (v - D.poisson0 f))) G D.S.Q F = a at *
  generalize l2Product (D.phys0 (v - D.poisson0 f)) f D.S.Q F = b at *
  have : 0 ≤ S + K + 2 * (b - a) := by
    by_contra hc
    push Not at hc
    have h1 : 0 ≤ S + K := by linarith
    nlinarith [sq_nonneg (S - K)]
  linarith

/-- **C101** There always is such a `K`; the smallest one is attained. -/
theorem C101_consistency_error (h : Admissible ns ps q types F polar dirichlet D) (ty : Toroidal types)
    (hd : dirichlet = true) (hs : polar = true → ns.1 ≤ ns.2.1) (f : V3 → Fin 1 → ℝ) (G : V3 → V3) :
    ∃ K : ℝ, 0 ≤ K ∧ (∀ v, (l2Product (D.phys1 (D.strongGrad *ᵥ v)) G D.S.Q F - l2Product (D.phys0 v) f D.S.Q F) ^ 2 ≤
      K * l2Product (D.phys1 (D.strongGrad *ᵥ v)) (D.phys1 (D.strongGrad *ᵥ v)) D.S.Q F) ∧
      ∃ v, l2Product (D.phys1 (D.strongGrad *ᵥ v)) (D.phys1 (D.strongGrad *ᵥ v)) D.S.Q F = K ∧
        l2Product (D.phys1 (D.strongGrad *ᵥ v)) G D.S.Q F - l2Product (D.phys0 v) f D.S.Q F = K := by
  have m0 := (C31_mass_matrices_definite h).1
  have hu := unit_mul m0 ((C73_laplacians_invertible_iff h ty).1.mpr ⟨hd, hs⟩)
  obtain ⟨p, hp⟩ : ∃ p, p = (D.M0 * D.dd0)⁻¹ *ᵥ (D.strongGradᵀ *ᵥ D.projector1 G - D.projector0 f) := ⟨_, rfl⟩
  have key : ∀ v, l2Product (D.phys1 (D.strongGrad *ᵥ v)) G D.S.Q F - l2Product (D.phys0 v) f D.S.Q F =
      l2Product (D.phys1 (D.strongGrad *ᵥ v)) (D.phys1 (D.strongGrad *ᵥ p)) D.S.Q F := by
    intro v
    rw [← dd0_l2 h, mulVec_mulVec, hp, mulVec_mulVec, mul_nonsing_inv _ hu, one_mulVec, dotProduct_sub, ← h.proj1_l2, ← h.proj0_l2,
      mulVec_transpose, dotProduct_comm v (D.projector1 G ᵥ* D.strongGrad), ← dotProduct_mulVec, dotProduct_comm (D.projector1 G)]
  refine ⟨_, l2_nonneg h (D.phys1 (D.strongGrad *ᵥ p)), fun v => ?_, p, rfl, key p⟩
  rw [key v, mul_comm]
  exact l2_cauchy h _ _

/-- **C101** A Poincaré inequality holds on every sequence on which the problem is well posed. -/
theorem C101_poincare (h : Admissible ns ps q types F polar dirichlet D) (ty : Toroidal types)
    (hd : dirichlet = true) (hs : polar = true → ns.1 ≤ ns.2.1) :
    ∃ lam : ℝ, 0 < lam ∧ ∀ v, lam * l2Product (D.phys0 v) (D.phys0 v) D.S.Q F ≤
      l2Product (D.phys1 (D.strongGrad *ᵥ v)) (D.phys1 (D.strongGrad *ᵥ v)) D.S.Q F := by
  have m0 := (C31_mass_matrices_definite h).1
  have hu := unit_mul m0 ((C73_laplacians_invertible_iff h ty).1.mpr ⟨hd, hs⟩)
  have sp : SPSD (D.M0 * D.dd0) := (C34_laplacians_semidefinite h).1
  have spd : SPD (D.M0 * D.dd0) := by
    refine ⟨sp.1, fun x hx => lt_of_le_of_ne (sp.2 x) fun e => hx ?_⟩
    have e' := e.symm
    rw [← mulVec_mulVec, dd0_l2 h, ← h.M1_l2] at e'
    have m1 := (C31_mass_matrices_definite h).2.1
    have z : D.strongGrad *ᵥ x = 0 := by
      by_contra hz
      exact absurd e' (m1.2 _ hz).ne'
    have : (D.M0 * D.dd0) *ᵥ x = 0 := dot_ext fun v => by
      rw [← mulVec_mulVec, dd0_l2 h, ← h.M1_l2, z]; simp
    rw [← one_mulVec x, ← nonsing_inv_mul _ hu, ← mulVec_mulVec, this, mulVec_zero]
  obtain ⟨a, ha, ha'⟩ := quad_upper D.M0
  obtain ⟨b, hb, hb'⟩ := quad_lower spd
  refine ⟨1 / (a * b) ^ 2, by positivity, fun v => ?_⟩
  rw [← h.M0_l2, ← dd0_l2 h, mulVec_mulVec]
  have k1 := (ha' v).trans (mul_le_mul_of_nonneg_left (hb' v) ha.le)
  have k2 := pow_le_pow_left₀ (Real.sqrt_nonneg _) k1 2
  rw [Real.sq_sqrt (m0.psd.2 v), ← mul_assoc, mul_pow, Real.sq_sqrt (spd.psd.2 v)] at k2
  rw [one_div, inv_mul_le_iff₀ (by positivity)]
  exact k2

/-- Case: the standard case. -/
example (polar : Bool) := C101_poincare (Case.adm polar true) ⟨rfl, by decide, by decide⟩ rfl (fun _ => by norm_num)

/-- **C101** Stability: with a Poincaré constant `λ` the solution and its gradient are bounded by the source. -/
theorem C101_poisson_stable (h : Admissible ns ps q types F polar dirichlet D) (ty : Toroidal types)
    (hd : dirichlet = true) (hs : polar = true → ns.1 ≤ ns.2.1) (lam : ℝ) (hl : 0 < lam)
    (hp : ∀ v, lam * l2Product (D.phys0 v) (D.phys0 v) D.S.Q F ≤ l2Product (D.phys1 (D.strongGrad *ᵥ v)) (D.phys1 (D.strongGrad *ᵥ v)) D.S.Q F)
    (f : V3 → Fin 1 → ℝ) :
    lam * l2Product (D.phys1 (D.strongGrad *ᵥ D.poisson0 f)) (D.phys1 (D.strongGrad *ᵥ D.poisson0 f)) D.S.Q F ≤ l2Product f f D.S.Q F ∧
    lam ^ 2 * l2Product (D.phys0 (D.poisson0 f)) (D.phys0 (D.poisson0 f)) D.S.Q F ≤ l2Product f f D.S.Q F := by
  have hw := (C78_poisson_weak_form h ty hd hs f _).mp rfl (D.poisson0 f)
  have c := l2_cauchy h (D.phys0 (D.poisson0 f)) f
  have p := hp (D.poisson0 f)
  have n0 := l2_nonneg h (D.phys0 (D.poisson0 f))
  have n1 := l2_nonneg h (D.phys1 (D.strongGrad *ᵥ D.poisson0 f))
  have n2 := l2_nonneg h f
  rw [← hw] at c
  generalize l2Product (D.phys0 (D.poisson0 f)) (D.phys0 (D.poisson0 f)) D.S.Q F = a at *
  generalize l2Product (D.phys1 (D.strongGrad *ᵥ D.poisson0 f)) (D.phys1 (D.strongGrad *ᵥ D.poisson0 f)) D.S.Q F = b at *
  generalize l2Product f f D.S.Q F = s at *
  have k : lam * b ≤ s := by
    rcases n1.eq_or_lt with e | e
    · rw [← e, mul_zero]; exact n2
    · have : lam * b * b ≤ s * b := by nlinarith
      exact le_of_mul_le_mul_right this e
  exact ⟨k, by nlinarith⟩

/-- Case: the standard case with the constant that `C101_poincare` gives. -/
example (polar : Bool) := C101_poisson_stable (Case.adm polar true) ⟨rfl, by decide, by decide⟩ rfl (fun _ => by norm_num) _
  (C101_poincare (Case.adm polar true) ⟨rfl, by decide, by decide⟩ rfl (fun _ => by norm_num)).choose_spec.1
  (C101_poincare (Case.adm polar true) ⟨rfl, by decide, by decide⟩ rfl (fun _ => by norm_num)).choose_spec.2

/-- **C101** With a discrete function `c` as close to the exact solution `φ` in L2 and in energy as one likes: the L2 error of the computed
solution. -/
theorem C101_poisson_l2_error (h : Admissible ns ps q types F polar dirichlet D) (ty : Toroidal types)
    (hd : dirichlet = true) (hs : polar = true → ns.1 ≤ ns.2.1) (lam : ℝ) (hl : 0 < lam)
    (hp : ∀ v, lam * l2Product (D.phys0 v) (D.phys0 v) D.S.Q F ≤ l2Product (D.phys1 (D.strongGrad *ᵥ v)) (D.phys1 (D.strongGrad *ᵥ v)) D.S.Q F)
    (f φ : V3 → Fin 1 → ℝ) (G : V3 → V3)
    (hG : ∀ v, l2Product (D.phys1 (D.strongGrad *ᵥ v)) G D.S.Q F = l2Product (D.phys0 v) f D.S.Q F) (c : Fin D.m0 → ℝ) :
    l2Product (fun x => φ x - D.phys0 (D.poisson0 f) x) (fun x => φ x - D.phys0 (D.poisson0 f) x) D.S.Q F ≤
      2 * l2Product (fun x => φ x - D.phys0 c x) (fun x => φ x - D.phys0 c x) D.S.Q F
      + 2 / lam * l2Product (fun x => G x - D.phys1 (D.strongGrad *ᵥ c) x) (fun x => G x - D.phys1 (D.strongGrad *ᵥ c) x) D.S.Q F := by
  have e := C101_poisson_best h ty hd hs f G hG c
  have n := l2_nonneg h (fun x => G x - D.phys1 (D.strongGrad *ᵥ D.poisson0 f) x)
  have p := hp (c - D.poisson0 f)
  have q1 : l2Product (D.phys0 (c - D.poisson0 f)) (D.phys0 (c - D.poisson0 f)) D.S.Q F ≤ 1 / lam *
      l2Product (fun x => G x - D.phys1 (D.strongGrad *ᵥ c) x) (fun x => G x - D.phys1 (D.strongGrad *ᵥ c) x) D.S.Q F := by
    rw [one_div, ← div_eq_inv_mul, le_div_iff₀ hl]
    linarith
  have par := l2_nonneg h (fun x => (φ x - D.phys0 c x) - (D.phys0 (c - D.poisson0 f)) x)
  have id1 : ∀ x, φ x - D.phys0 (D.poisson0 f) x = (φ x - D.phys0 c x) + D.phys0 (c - D.poisson0 f) x := by
    intro x
    rw [h.phys0_eq, h.phys0_eq, h.phys0_eq]
    unfold form0 discreteFunction
    funext k
    simp only [Pi.sub_apply, Pi.add_apply, sub_vecMul, sub_dotProduct]
    ring
  have add : l2Product (fun x => φ x - D.phys0 (D.poisson0 f) x) (fun x => φ x - D.phys0 (D.poisson0 f) x) D.S.Q F
      + l2Product (fun x => (φ x - D.phys0 c x) - (D.phys0 (c - D.poisson0 f)) x) (fun x => (φ x - D.phys0 c x) - (D.phys0 (c - D.poisson0 f)) x) D.S.Q F
      = 2 * l2Product (fun x => φ x - D.phys0 c x) (fun x => φ x - D.phys0 c x) D.S.Q F
        + 2 * l2Product (D.phys0 (c - D.poisson0 f)) (D.phys0 (c - D.poisson0 f)) D.S.Q F := by
    simp only [id1]
    unfold l2Product
    simp only [mul_sum, ← sum_add_distrib]
    refine sum_congr rfl fun i _ => sum_congr rfl fun j _ => ?_
    simp only [Pi.sub_apply, Pi.add_apply]
    ring
  have : 2 / lam = 2 * (1 / lam) := by ring
  rw [this]
  nlinarith

/-- Case: the standard case with the constant that `C101_poincare` gives. -/
example (polar : Bool) (f φ : V3 → Fin 1 → ℝ) := C101_poisson_l2_error (Case.adm polar true) ⟨rfl, by decide, by decide⟩ rfl (fun _ => by norm_num) _
  (C101_poincare (Case.adm polar true) ⟨rfl, by decide, by decide⟩ rfl (fun _ => by norm_num)).choose_spec.1
  (C101_poincare (Case.adm polar true) ⟨rfl, by decide, by decide⟩ rfl (fun _ => by norm_num)).choose_spec.2 f φ _
  ((C78_poisson_weak_form (Case.adm polar true) ⟨rfl, by decide, by decide⟩ rfl (fun _ => by norm_num) f _).mp rfl)

/-- **C101** Mixed formulation: among the discrete fluxes with the divergence prescribed by the source, the computed flux is the closest to
every field `G` that is orthogonal to the divergence-free discrete fields (such as the exact flux, a gradient); in general up to the
consistency error `K`. -/
theorem C101_mixed_flux_best (h : Admissible ns ps q types F polar dirichlet D) (ty : Toroidal types)
    (hd : dirichlet = false) (hs : ns.1 ≤ ns.2.1) (hs' : polar = true → ns.1 = ns.2.1) (f : V3 → Fin 1 → ℝ) (G : V3 → V3) (K : ℝ) (hK : 0 ≤ K)
    (hG : ∀ τ, D.strongDiv *ᵥ τ = 0 → l2Product (D.phys2 τ) G D.S.Q F ^ 2 ≤ K * l2Product (D.phys2 τ) (D.phys2 τ) D.S.Q F)
    (τ : Fin D.m2 → ℝ) (hτ : ∀ v, -l2Product (D.phys3 v) (D.phys3 (D.strongDiv *ᵥ τ)) D.S.Q F = l2Product (D.phys3 v) f D.S.Q F) :
    l2Product (fun x => G x - D.phys2 (D.weakGrad *ᵥ D.poisson3 f) x) (fun x => G x - D.phys2 (D.weakGrad *ᵥ D.poisson3 f) x) D.S.Q F ≤
      l2Product (fun x => G x - D.phys2 τ x) (fun x => G x - D.phys2 τ x) D.S.Q F + K ∧
    (K = 0 → l2Product (fun x => G x - D.phys2 τ x) (fun x => G x - D.phys2 τ x) D.S.Q F =
      l2Product (fun x => G x - D.phys2 (D.weakGrad *ᵥ D.poisson3 f) x) (fun x => G x - D.phys2 (D.weakGrad *ᵥ D.poisson3 f) x) D.S.Q F
      + l2Product (D.phys2 (τ - D.weakGrad *ᵥ D.poisson3 f)) (D.phys2 (τ - D.weakGrad *ᵥ D.poisson3 f)) D.S.Q F) := by
  obtain ⟨m0, m1, m2, m3⟩ := C31_mass_matrices_definite h
  obtain ⟨w1, w2⟩ := (C78_mixed_poisson h ty hd hs hs' f _ _).mp ⟨rfl, rfl⟩
  obtain ⟨σ, hσ⟩ : ∃ σ, σ = D.weakGrad *ᵥ D.poisson3 f := ⟨_, rfl⟩
  rw [← hσ] at w1 w2 ⊢
  have hdiv : D.strongDiv *ᵥ (τ - σ) = 0 := by
    have : D.M3 *ᵥ (D.strongDiv *ᵥ (τ - σ)) = 0 := dot_ext fun v => by
      have a := hτ v
      have b := w2 v
      rw [← h.M3_l2] at a b
      rw [mulVec_sub, mulVec_sub, dotProduct_sub, dotProduct_zero]
      linarith
    rw [← one_mulVec (D.strongDiv *ᵥ (τ - σ)), ← m3.inv_mul, ← mulVec_mulVec, this, mulVec_zero]
  have orth : l2Product (D.phys2 (τ - σ)) (D.phys2 σ) D.S.Q F = 0 := by
    rw [w1, hdiv, ← h.M3_l2]; simp
  have e : l2Product (fun x => G x - D.phys2 τ x) (fun x => G x - D.phys2 τ x) D.S.Q F =
      l2Product (fun x => G x - D.phys2 σ x) (fun x => G x - D.phys2 σ x) D.S.Q F
      + l2Product (D.phys2 (τ - σ)) (D.phys2 (τ - σ)) D.S.Q F - 2 * l2Product (D.phys2 (τ - σ)) G D.S.Q F := by
    rw [← h.M2_l2] at orth
    rw [l2_sub, l2_sub]
    simp only [← h.M2_l2, ← h.proj2_l2]
    simp only [mulVec_sub, dotProduct_sub, sub_dotProduct] at orth ⊢
    rw [sym_dot m2.1 σ τ]
    linarith
  have c := hG _ hdiv
  have s := l2_nonneg h (D.phys2 (τ - σ))
  rw [e]
  generalize l2Product (D.phys2 (τ - σ)) (D.phys2 (τ - σ)) D.S.Q F = S at *
  generalize l2Product (D.phys2 (τ - σ)) G D.S.Q F = a at *
  constructor
  · have : 0 ≤ S + K - 2 * a := by
      by_contra hc
      push Not at hc
      have h1 : 0 ≤ S + K := by linarith
      nlinarith [sq_nonneg (S - K)]
    linarith
  · rintro rfl
    have : a = 0 := by nlinarith
    rw [this]; ring

/-- Case: the standard case without Dirichlet conditions and the field `G = 0`; the discrete flux itself satisfies the equation. -/
example (polar : Bool) (f : V3 → Fin 1 → ℝ) := C101_mixed_flux_best (Case.adm polar false) ⟨rfl, by decide, by decide⟩ rfl (by norm_num) (fun _ => by norm_num) f (fun _ => 0) 1 (by norm_num)
  (by intro τ _; rw [one_mul, show l2Product ((Case.D polar false).phys2 τ) (fun _ => 0) (Case.D polar false).S.Q Case.map = 0 by
        simp [l2Product]]; rw [zero_pow (by norm_num)]; exact l2_nonneg (Case.adm polar false) _) _
  ((C78_mixed_poisson (Case.adm polar false) ⟨rfl, by decide, by decide⟩ rfl (by norm_num) (fun _ => by norm_num) f _ _).mp ⟨rfl, rfl⟩).2

end

end Mrx.Props
