import Verif.Proofs.Exact

/-! # Admissible sequences exist -/

set_option linter.unusedSectionVars false

namespace Mrx
open Finset Jax Spec Matrix Quad Props

theorem DirOK.build {n p q : Nat} {ty : String} (h : DirOK n p q ty) :
    ∃ s d xw, SplineBasis.mk? (K := ℝ) n p ty = .ok s ∧ DerivativeSpline.mk? s = .ok d ∧ selectQuadrature s q = .ok xw := by
  rcases h with ⟨rfl, a, b, c, e⟩ | ⟨rfl, a, b, c, e, f⟩ | ⟨rfl, rfl, e⟩
  · exact ⟨_, _, _, mk?_clamped n p (Or.inl b), mk?_deriv_clamped n p a b, by simp only [selectQuadrature, if_true]; rfl⟩
  · exact ⟨_, _, _, mk?_periodic n p b, mk?_deriv_periodic n p a c b, by
      simp only [selectQuadrature, show ¬ ("periodic" = "clamped") by decide, if_false, if_true]; rfl⟩
  · obtain ⟨s, hs⟩ := (C09_constructor_accepts_iff (K := ℝ) 1 p "constant").mpr ⟨by simp, by omega⟩
    obtain ⟨hn, hp, hty⟩ := Form.spline_mk?_ok hs
    have hd : ∃ d, DerivativeSpline.mk? s = .ok d := by
      refine ⟨⟨1, p, "constant", s.T, ⟨1, p, "constant", s.T⟩⟩, ?_⟩
      unfold DerivativeSpline.mk? SplineBasis.mk?
      simp [hty, hn, hp]
      rw [if_neg (by omega)]
    obtain ⟨d, hd⟩ := hd
    have hx : ∃ xw, selectQuadrature s q = .ok xw := by
      unfold selectQuadrature spectralQuad
      rw [hty]
      simp only [show ¬ ("constant" = "clamped") by decide, show ¬ ("constant" = "periodic") by decide,
        show ¬ ("constant" = "fourier") by decide, if_false, show (1 ≤ 1 ∧ 1 ≤ 10) by decide, and_self, if_true]
      exact ⟨_, rfl⟩
    obtain ⟨xw, hx⟩ := hx
    exact ⟨s, d, xw, hs, hd, hx⟩

theorem Seq.build {ns ps : Nat × Nat × Nat} {q : Nat} {types : String × String × String} (hr : DirOK ns.1 ps.1 q types.1)
    (ht : DirOK ns.2.1 ps.2.1 q types.2.1) (hz : DirOK ns.2.2 ps.2.2 q types.2.2) :
    ∃ S : Seq ℝ, Seq.mk? ns ps q types = .ok S := by
  obtain ⟨s0, d0, x0, a0, b0, c0⟩ := hr.build
  obtain ⟨s1, d1, x1, a1, b1, c1⟩ := ht.build
  obtain ⟨s2, d2, x2, a2, b2, c2⟩ := hz.build
  have hF : ∀ k : Int, Dims.validDegree k → Form.mk? k ns ps types = .ok (⟨⟨k, ns.1, ns.2.1, ns.2.2, Form.dsize ns.1 types.1,
      Form.dsize ns.2.1 types.2.1, Form.dsize ns.2.2 types.2.2⟩, s0, s1, s2, d0, d1, d2⟩ : Form ℝ) := by
    intro k hk
    unfold Form.mk?
    simp only [a0, a1, a2, b0, b1, b2]
    rw [if_pos hk]
  unfold Seq.mk?
  simp only [hF 0 (by simp [Dims.validDegree]), hF 1 (by simp [Dims.validDegree]), hF 2 (by simp [Dims.validDegree]),
    hF 3 (by simp [Dims.validDegree]), Quad.Rule.mk?, c0, c1, c2]
  exact ⟨_, rfl⟩

/-- For every choice of parameters and every map with Jacobian determinant at least `1e-5` everywhere, the constructor returns
an admissible sequence. -/
theorem Admissible.exists {ns ps : Nat × Nat × Nat} {q : Nat} {types : String × String × String} (F : V3 → V3) (polar dirichlet : Bool)
    (hq : q ≤ 10) (hr : DirOK ns.1 ps.1 q types.1) (ht : DirOK ns.2.1 ps.2.1 q types.2.1) (hz : DirOK ns.2.2 ps.2.2 q types.2.2)
    (hp : polar = true → types.1 = "clamped" ∧ types.2.1 = "periodic" ∧ types.2.2 ≠ "clamped" ∧ 3 ≤ ns.1 ∧ 3 ≤ ns.2.1)
    (hF : ∀ x, 1e-5 ≤ jacobianDeterminant F x) : ∃ D, Admissible ns ps q types F polar dirichlet D := by
  obtain ⟨S, hS⟩ := Seq.build hr ht hz
  refine ⟨if polar then DeRham.ofPolar S F ns.2.1 dirichlet else DeRham.ofBoundary S F dirichlet, ?_, hq, hr, ht, hz, hp, fun x _ => hF _⟩
  unfold DeRham.mk?
  rw [hS]

theorem jacobianDeterminant_id (x : V3) : jacobianDeterminant (fun y => y) x = 1 := by
  unfold jacobianDeterminant
  have := jacfwd_mulVec 1 x
  simp only [one_mulVec] at this
  rw [this, det_one]

/-- A standard case: 5 × 6 × 4 cubic/quadratic splines, 4 Gauss points, identity map; polar or not, Dirichlet or not. -/
theorem Admissible.example (polar dirichlet : Bool) :
    ∃ D, Admissible (5, 6, 4) (3, 2, 1) 4 ("clamped", "periodic", "periodic") (fun y => y) polar dirichlet D :=
  Admissible.exists _ _ _ (by norm_num) (by unfold DirOK; norm_num) (by unfold DirOK; norm_num) (by unfold DirOK; norm_num)
    (by intro _; simp) fun x => by rw [jacobianDeterminant_id]; norm_num

end Mrx
