import Verif.Proofs.Case
import Verif.Props.Bounds
import Verif.Props.Mass
import Verif.Props.Start

/-!
# C89 (and more of C36): what the L2 projections return

`solve(M_k, P_k(f))` is the best approximation of `f` in the quadrature L2 norm, for all four degrees, and
returns `f` itself, at every point of the closed cube, when `f` is a (tensor product) spline.
-/

set_option linter.unusedSectionVars false
set_option linter.unusedVariables false

namespace Mrx.Props
open Finset Mrx.Spec Mrx Matrix DeRham Quad

section
variable {ns ps : Nat × Nat × Nat} {q : Nat} {types : String × String × String} {F : V3 → V3} {polar dirichlet : Bool} {D : DeRham}

theorem pythagoras {n d : Nat} {M : Matrix (Fin n) (Fin n) ℝ} (hM : SPD M) {phys : (Fin n → ℝ) → V3 → Fin d → ℝ} {proj : (V3 → Fin d → ℝ) → Fin n → ℝ}
    {Q : Quad.Rule ℝ} (hp : ∀ a f, a ⬝ᵥ proj f = l2Product (phys a) f Q F) (hm : ∀ u v, u ⬝ᵥ M *ᵥ v = l2Product (phys u) (phys v) Q F)
    (f : V3 → Fin d → ℝ) (v : Fin n → ℝ) :
    l2Product (fun x => f x - phys v x) (fun x => f x - phys v x) Q F =
      l2Product (fun x => f x - phys (M⁻¹ *ᵥ proj f) x) (fun x => f x - phys (M⁻¹ *ᵥ proj f) x) Q F
        + (v - M⁻¹ *ᵥ proj f) ⬝ᵥ M *ᵥ (v - M⁻¹ *ᵥ proj f) := by
  obtain ⟨c, hc⟩ : ∃ c, c = M⁻¹ *ᵥ proj f := ⟨_, rfl⟩
  have e : M *ᵥ c = proj f := by rw [hc, mulVec_mulVec, hM.mul_inv, one_mulVec]
  rw [← hc, l2_sub, l2_sub, ← hm v v, ← hm c c, ← hp v f, ← hp c f, ← e]
  simp only [mulVec_sub, dotProduct_sub, sub_dotProduct]
  have sym : c ⬝ᵥ M *ᵥ v = v ⬝ᵥ M *ᵥ c := by
    have hs : Mᵀ = M := hM.psd.1
    rw [dotProduct_mulVec, ← mulVec_transpose, hs, dotProduct_comm]
  rw [sym]
  ring

/-- **C36** For every degree the squared quadrature-L2 distance of `f` to any discrete field exceeds the
distance to the projection by the (non-negative) mass norm of the difference of the coefficients: the
projection is the unique best approximation. -/
theorem C36_best_approximation (h : Admissible ns ps q types F polar dirichlet D) :
    (∀ f v, l2Product (fun x => f x - D.phys0 v x) (fun x => f x - D.phys0 v x) D.S.Q F =
      l2Product (fun x => f x - D.phys0 (D.M0⁻¹ *ᵥ D.projector0 f) x) (fun x => f x - D.phys0 (D.M0⁻¹ *ᵥ D.projector0 f) x) D.S.Q F
        + (v - D.M0⁻¹ *ᵥ D.projector0 f) ⬝ᵥ D.M0 *ᵥ (v - D.M0⁻¹ *ᵥ D.projector0 f)) ∧
    (∀ f v, l2Product (fun x => f x - D.phys1 v x) (fun x => f x - D.phys1 v x) D.S.Q F =
      l2Product (fun x => f x - D.phys1 (D.M1⁻¹ *ᵥ D.projector1 f) x) (fun x => f x - D.phys1 (D.M1⁻¹ *ᵥ D.projector1 f) x) D.S.Q F
        + (v - D.M1⁻¹ *ᵥ D.projector1 f) ⬝ᵥ D.M1 *ᵥ (v - D.M1⁻¹ *ᵥ D.projector1 f)) ∧
    (∀ f v, l2Product (fun x => f x - D.phys2 v x) (fun x => f x - D.phys2 v x) D.S.Q F =
      l2Product (fun x => f x - D.phys2 (D.M2⁻¹ *ᵥ D.projector2 f) x) (fun x => f x - D.phys2 (D.M2⁻¹ *ᵥ D.projector2 f) x) D.S.Q F
        + (v - D.M2⁻¹ *ᵥ D.projector2 f) ⬝ᵥ D.M2 *ᵥ (v - D.M2⁻¹ *ᵥ D.projector2 f)) ∧
    (∀ f v, l2Product (fun x => f x - D.phys3 v x) (fun x => f x - D.phys3 v x) D.S.Q F =
      l2Product (fun x => f x - D.phys3 (D.M3⁻¹ *ᵥ D.projector3 f) x) (fun x => f x - D.phys3 (D.M3⁻¹ *ᵥ D.projector3 f) x) D.S.Q F
        + (v - D.M3⁻¹ *ᵥ D.projector3 f) ⬝ᵥ D.M3 *ᵥ (v - D.M3⁻¹ *ᵥ D.projector3 f)) ∧
    (∀ w, 0 ≤ w ⬝ᵥ D.M0 *ᵥ w ∧ (w ⬝ᵥ D.M0 *ᵥ w = 0 → w = 0)) ∧ (∀ w, 0 ≤ w ⬝ᵥ D.M1 *ᵥ w ∧ (w ⬝ᵥ D.M1 *ᵥ w = 0 → w = 0)) ∧
    (∀ w, 0 ≤ w ⬝ᵥ D.M2 *ᵥ w ∧ (w ⬝ᵥ D.M2 *ᵥ w = 0 → w = 0)) ∧ (∀ w, 0 ≤ w ⬝ᵥ D.M3 *ᵥ w ∧ (w ⬝ᵥ D.M3 *ᵥ w = 0 → w = 0)) := by
  obtain ⟨m0, m1, m2, m3⟩ := C31_mass_matrices_definite h
  have pos : ∀ {n : Nat} {M : Matrix (Fin n) (Fin n) ℝ}, SPD M → ∀ w, 0 ≤ w ⬝ᵥ M *ᵥ w ∧ (w ⬝ᵥ M *ᵥ w = 0 → w = 0) := by
    intro n M hM w
    refine ⟨hM.psd.2 w, fun h0 => ?_⟩
    by_contra hw
    exact (hM.2 w hw).ne' h0
  exact ⟨pythagoras m0 h.proj0_l2 h.M0_l2, pythagoras m1 h.proj1_l2 h.M1_l2, pythagoras m2 h.proj2_l2 h.M2_l2, pythagoras m3 h.proj3_l2 h.M3_l2,
    pos m0, pos m1, pos m2, pos m3⟩

/-- Case: the standard case. -/
example (polar dirichlet : Bool) := C36_best_approximation (Case.adm polar dirichlet)

/-! ## Quadrature points -/

theorem dir_points {n p q : Nat} {ty : String} (h : DirOK n p q ty) (hq : q ≤ 10) {s : SplineBasis ℝ}
    (hs : SplineBasis.mk? n p ty = .ok s) {xw : List ℝ × List ℝ} (hsel : selectQuadrature s q = .ok xw) : ∀ x ∈ xw.1, 0 ≤ x ∧ x ≤ 1 := by
  rcases h with ⟨rfl, a, b, c, e⟩ | ⟨rfl, a, b, c, e, f⟩ | ⟨rfl, rfl, _⟩
  · obtain ⟨xs, ws, e1, e2, l1, l2, hi, hp, _⟩ := C11_select_rule n p a "clamped" (n - p) (Or.inl ⟨rfl, b, rfl⟩) s hs q (by omega) hq
    rw [hsel] at e1
    obtain rfl := Except.ok.inj e1
    exact fun x hx => ⟨(hi x hx).1.le, (hi x hx).2.le⟩
  · obtain ⟨xs, ws, e1, e2, l1, l2, hi, hp, _⟩ := C11_select_rule n p a "periodic" n (Or.inr ⟨rfl, c, b, rfl⟩) s hs q (by omega) hq
    rw [hsel] at e1
    obtain rfl := Except.ok.inj e1
    exact fun x hx => ⟨(hi x hx).1.le, (hi x hx).2.le⟩
  · have hty : s.type = "constant" := (Form.spline_mk?_ok hs).2.2
    have := hsel
    unfold selectQuadrature at this
    rw [hty] at this
    simp only [show ¬ ("constant" = "clamped") by decide, show ¬ ("constant" = "periodic") by decide,
      show ¬ ("constant" = "fourier") by decide, if_false, spectralQuad, show (1 ≤ 1 ∧ 1 ≤ 10) by decide, and_self, if_true] at this
    obtain rfl := Except.ok.inj this
    intro x hx
    obtain ⟨a, ha, rfl⟩ := List.mem_map.mp hx
    have : a = 0 := by
      have : (nodesAndWeights 1).1 = [0] := by decide +kernel
      rw [this] at ha
      simpa using ha
    subst this
    norm_num

/-- Every quadrature point of an admissible sequence lies in the cube. -/
theorem points_in_cube (h : Admissible ns ps q types F polar dirichlet D) (x : ℝ × ℝ × ℝ) (hx : x ∈ D.S.Q.x) : InCube x := by
  obtain ⟨m0, _, _, _, hQ⟩ := Seq.mk?_inv (Admissible.seq h.built)
  obtain ⟨_, hd, s0, s1, s2, _⟩ := Form.mk?_inv m0
  unfold Quad.Rule.mk? at hQ
  split at hQ
  case h_2 => cases hQ
  rename_i rx ry rz hx' hy' hz'
  have hQ' := Except.ok.inj hQ
  rw [← hQ'] at hx
  simp only [Quad.Rule.ofRules, List.mem_flatMap, List.mem_map] at hx
  obtain ⟨b, hb, a, ha, c, hc, rfl⟩ := hx
  exact ⟨dir_points h.r h.q10 s0 hx' a ha, dir_points h.t h.q10 s1 hy' b hb, dir_points h.z h.q10 s2 hz' c hc⟩

/-- The projector sees its argument at points of the cube only. -/
theorem projector0_congr (h : Admissible ns ps q types F polar dirichlet D) (f g : V3 → Fin 1 → ℝ)
    (hfg : ∀ x, InCube x → f (toV3 x) 0 = g (toV3 x) 0) : D.projector0 f = D.projector0 g := by
  refine dot_ext fun a => ?_
  rw [h.proj0_l2, h.proj0_l2]
  unfold l2Product
  refine sum_congr rfl fun i hi => sum_congr rfl fun j _ => ?_
  have hj : j = 0 := Subsingleton.elim _ _
  subst hj
  have : D.S.Q.x.getD i 0 ∈ D.S.Q.x := by
    have hl := h.points_len
    have hi' : i < D.S.Q.x.length := by rw [hl]; exact mem_range.mp hi
    rw [List.getD_eq_getElem?_getD, List.getElem?_eq_getElem hi']
    exact List.getElem_mem _
  rw [hfg _ (points_in_cube h _ this)]

/-! ## Tensor product splines -/

/-- `f` is a spline of the kind the basis type stands for. -/
def DirSpline (n p : Nat) (ty : String) (f : ℝ → ℝ) : Prop :=
  (ty = "clamped" ∧ IsSpline p (n - p) f) ∨ (ty = "periodic" ∧ IsPeriodicSpline p n f) ∨
    (ty = "constant" ∧ ∃ a, ∀ x, 0 ≤ x → x ≤ 1 → f x = a)

theorem DirSpline.coeffs {n p q : Nat} {ty : String} {f : ℝ → ℝ} (hf : DirSpline n p ty f) (h : DirOK n p q ty) {s : SplineBasis ℝ}
    (hs : SplineBasis.mk? n p ty = .ok s) : ∃ c : Nat → ℝ, ∀ x, 0 ≤ x → x ≤ 1 → f x = ∑ i ∈ range n, c i * s.evaluate x (i : Int) := by
  rcases hf with ⟨rfl, hf⟩ | ⟨rfl, hf⟩ | ⟨rfl, a, hf⟩
  · rcases h with ⟨_, a, b, c, _⟩ | ⟨hc, _⟩ | ⟨hc, _⟩
    · exact (C86_clamped_space n p b c s hs f).mpr hf
    · exact absurd hc (by decide)
    · exact absurd hc (by decide)
  · rcases h with ⟨hc, _⟩ | ⟨_, a, b, c, d, _⟩ | ⟨hc, _⟩
    · exact absurd hc (by decide)
    · exact (C86_periodic_space n p a c b d s hs f).mpr hf
    · exact absurd hc (by decide)
  · rcases h with ⟨hc, _⟩ | ⟨hc, _⟩ | ⟨_, rfl, _⟩
    · exact absurd hc (by decide)
    · exact absurd hc (by decide)
    · refine ⟨fun _ => a, fun x h0 h1 => ?_⟩
      have ht := (Form.spline_mk?_ok hs).2.2
      rw [hf x h0 h1]
      simp [SplineBasis.evaluate, ht]

/-- Without boundary conditions every coefficient array is reached. -/
theorem E0_onto (h : Admissible ns ps q types F false false D) (v : Fin D.S.L0.dims.n → ℝ) : ∃ u, D.E0ᵀ *ᵥ u = v := by
  obtain ⟨k0, _⟩ := h.degrees
  obtain ⟨S, hS, ⟨hp, rfl⟩ | ⟨hp, rfl⟩⟩ := Admissible.cases' h.built
  · cases hp
  · refine ⟨(BoundaryOp.mk S.L0.dims (bcTypes false)).matrix *ᵥ v, funext fun c => ?_⟩
    refine (C26_projection (BoundaryOp.mk S.L0.dims (bcTypes false)) (Or.inl k0) v c).1 ?_
    unfold Kept Keeps1 LeftConstrained RightConstrained bcTypes
    simp

theorem zeroform_value' (h : Admissible ns ps q types F polar dirichlet D) (u : Fin D.m0 → ℝ) (x : ℝ × ℝ × ℝ) :
    D.phys0 u (toV3 x) 0 = ∑ i ∈ range ns.1, ∑ j ∈ range ns.2.1, ∑ l ∈ range ns.2.2, coef D.S.L0.dims (D.E0ᵀ *ᵥ u) 0 i j l
      * (D.S.L0.Λ0.evaluate x.1 i * D.S.L0.Λ1.evaluate x.2.1 j * D.S.L0.Λ2.evaluate x.2.2 l) := by
  obtain ⟨m0, _, _, _, hQ⟩ := Seq.mk?_inv (Admissible.seq h.built)
  obtain ⟨hk, hd, s0, s1, s2, _⟩ := Form.mk?_inv m0
  have hk0 : D.S.L0.dims.k = 0 := by rw [hd]
  rw [h.phys0_eq]
  show discreteFunction D.S.L0 u D.E0 (fromV3 (toV3 x)) 0 = _
  rw [fromV3_toV3, discreteFunction_eq_sum D.S.L0 (Form.mk?_wf m0) _ _ _ 0 (by simp [Dims.shape, hk0])]
  have hc : D.S.L0.dims.cshape 0 = (ns.1, ns.2.1, ns.2.2) := by
    simp only [Dims.cshape, Dims.shape, hk0, if_true]
    rw [hd]; rfl
  rw [hc]
  simp only [basisValue, isDeriv, hk0, factor]
  simp

/-- A 0-form with prescribed values of the three-index coefficients, when there is no boundary condition. -/
theorem zeroform_onto (h : Admissible ns ps q types F false false D) (C : Nat → Nat → Nat → ℝ) : ∃ u : Fin D.m0 → ℝ, ∀ x,
    D.phys0 u (toV3 x) 0 = ∑ i ∈ range ns.1, ∑ j ∈ range ns.2.1, ∑ l ∈ range ns.2.2, C i j l
      * (D.S.L0.Λ0.evaluate x.1 i * D.S.L0.Λ1.evaluate x.2.1 j * D.S.L0.Λ2.evaluate x.2.2 l) := by
  obtain ⟨m0, _, _, _, hQ⟩ := Seq.mk?_inv (Admissible.seq h.built)
  obtain ⟨hk, hd, s0, s1, s2, _⟩ := Form.mk?_inv m0
  have hk0 : D.S.L0.dims.k = 0 := by rw [hd]
  have hkv : Dims.validDegree D.S.L0.dims.k := by rw [hk0]; exact hk
  have hc : D.S.L0.dims.cshape 0 = (ns.1, ns.2.1, ns.2.2) := by
    simp only [Dims.cshape, Dims.shape, hk0, if_true]
    rw [hd]; rfl
  obtain ⟨u, hu⟩ := E0_onto h (fun a => C (D.S.L0.dims.unravelIndex a).2.1 (D.S.L0.dims.unravelIndex a).2.2.1 (D.S.L0.dims.unravelIndex a).2.2.2)
  refine ⟨u, fun x => ?_⟩
  rw [zeroform_value' h]
  refine sum_congr rfl fun i hi => sum_congr rfl fun j hj => sum_congr rfl fun l hl => ?_
  have hin : D.S.L0.dims.InRange 0 i j l := by
    unfold Dims.InRange
    rw [hc]
    exact ⟨mem_range.mp hi, mem_range.mp hj, mem_range.mp hl⟩
  have : coef D.S.L0.dims (D.E0ᵀ *ᵥ u) 0 i j l = C i j l := by
    rw [hu]
    unfold coef
    rw [dif_pos (Dims.ravelIndex_lt _ hkv hin)]
    simp only [Dims.unravelIndex_ravelIndex _ hkv hin]
  rw [this]

/-- **C89** Without boundary conditions the L2 projection of a sum of products of splines (of the degrees, mesh sizes and types of the
sequence), whatever the map, is that function at every point of the closed logical cube. -/
theorem C89_tensor_splines (h : Admissible ns ps q types F false false D) (T : Nat) (a b c : Nat → ℝ → ℝ)
    (ha : ∀ t < T, DirSpline ns.1 ps.1 types.1 (a t)) (hb : ∀ t < T, DirSpline ns.2.1 ps.2.1 types.2.1 (b t))
    (hc : ∀ t < T, DirSpline ns.2.2 ps.2.2 types.2.2 (c t)) (g : V3 → Fin 1 → ℝ)
    (hg : ∀ x, InCube x → g (toV3 x) 0 = ∑ t ∈ range T, a t x.1 * b t x.2.1 * c t x.2.2) (x : ℝ × ℝ × ℝ) (hx : InCube x) :
    D.phys0 (D.M0⁻¹ *ᵥ D.projector0 g) (toV3 x) 0 = g (toV3 x) 0 := by
  obtain ⟨m0, _, _, _, hQ⟩ := Seq.mk?_inv (Admissible.seq h.built)
  obtain ⟨_, hd, s0, s1, s2, _⟩ := Form.mk?_inv m0
  have ea := fun t (ht : t < T) => (ha t ht).coeffs h.r s0
  have eb := fun t (ht : t < T) => (hb t ht).coeffs h.t s1
  have ec := fun t (ht : t < T) => (hc t ht).coeffs h.z s2
  choose! α hα using ea
  choose! β hβ using eb
  choose! γ hγ using ec
  obtain ⟨u, hu⟩ := zeroform_onto h (fun i j l => ∑ t ∈ range T, α t i * β t j * γ t l)
  have hug : ∀ y, InCube y → g (toV3 y) 0 = D.phys0 u (toV3 y) 0 := by
    intro y hy
    rw [hg y hy, hu y]
    have e : ∀ t ∈ range T, a t y.1 * b t y.2.1 * c t y.2.2 = ∑ i ∈ range ns.1, ∑ j ∈ range ns.2.1, ∑ l ∈ range ns.2.2, α t i * β t j * γ t l
        * (D.S.L0.Λ0.evaluate y.1 i * D.S.L0.Λ1.evaluate y.2.1 j * D.S.L0.Λ2.evaluate y.2.2 l) := by
      intro t ht
      have ht := mem_range.mp ht
      rw [hα t ht _ hy.1.1 hy.1.2, hβ t ht _ hy.2.1.1 hy.2.1.2, hγ t ht _ hy.2.2.1 hy.2.2.2]
      rw [sum_mul_sum, sum_mul]
      refine sum_congr rfl fun i _ => ?_
      rw [sum_mul]
      refine sum_congr rfl fun j _ => ?_
      rw [mul_sum]
      exact sum_congr rfl fun l _ => by ring
    rw [sum_congr rfl e, sum_comm]
    refine sum_congr rfl fun i _ => ?_
    rw [sum_comm]
    refine sum_congr rfl fun j _ => ?_
    rw [sum_comm]
    refine sum_congr rfl fun l _ => ?_
    rw [sum_mul]
  rw [projector0_congr h g (D.phys0 u) hug, ((C36_projection_reproduces h).1 u).2, hug x hx]

/-- **C89** In particular polynomials of degree at most `p` in each clamped variable are reproduced. -/
theorem C89_polynomials (h : Admissible ns ps q types F false false D) (ht : types = ("clamped", "clamped", "clamped")) (T : Nat) (a b c : Nat → Polynomial ℝ)
    (ha : ∀ t < T, (a t).natDegree ≤ ps.1) (hb : ∀ t < T, (b t).natDegree ≤ ps.2.1) (hc : ∀ t < T, (c t).natDegree ≤ ps.2.2)
    (g : V3 → Fin 1 → ℝ)
    (hg : ∀ x, InCube x → g (toV3 x) 0 = ∑ t ∈ range T, (a t).eval x.1 * (b t).eval x.2.1 * (c t).eval x.2.2) (x : ℝ × ℝ × ℝ) (hx : InCube x) :
    D.phys0 (D.M0⁻¹ *ᵥ D.projector0 g) (toV3 x) 0 = g (toV3 x) 0 := by
  subst ht
  have key : ∀ (n p : Nat) (P : Polynomial ℝ), P.natDegree ≤ p → DirSpline n p "clamped" (fun x => P.eval x) := fun n p P hP =>
    Or.inl ⟨rfl, fun _ => P, ⟨fun _ _ => hP, fun _ _ _ _ _ => rfl⟩, fun _ _ _ _ => rfl, rfl⟩
  exact C89_tensor_splines h T _ _ _ (fun t ht => key _ _ _ (ha t ht)) (fun t ht => key _ _ _ (hb t ht)) (fun t ht => key _ _ _ (hc t ht)) g hg x hx

/-- **C89** On the polar sequence without boundary conditions constants are reproduced. -/
theorem C89_polar_constant (h : Admissible ns ps q types F true false D) (k : ℝ) (g : V3 → Fin 1 → ℝ)
    (hg : ∀ x, InCube x → g (toV3 x) 0 = k) (x : ℝ × ℝ × ℝ) (hx : InCube x) :
    D.phys0 (D.M0⁻¹ *ᵥ D.projector0 g) (toV3 x) 0 = k := by
  obtain ⟨m0, _, _, _, hQ⟩ := Seq.mk?_inv (Admissible.seq h.built)
  obtain ⟨tr, tt, tz, nr, nt⟩ := h.polar rfl
  have hty : types = ("clamped", "periodic", types.2.2) := by
    rw [← tr, ← tt]
  have hS : PolarSetting 0 ns ps types.2.2 D.S.L0 := ⟨by rw [← hty]; exact m0, nr, Or.inl rfl⟩
  have hr : ps.1 < ns.1 ∧ ns.1 - ps.1 ≤ 99900 := by
    rcases h.r with ⟨_, _, b, c, _⟩ | ⟨e, _⟩ | ⟨e, _⟩
    · exact ⟨b, c⟩
    · rw [tr] at e; exact absurd e (by decide)
    · rw [tr] at e; exact absurd e (by decide)
  have hu := fun n p ty (hd : DirOK n p q ty) => (show AngularUnity n p ty from by
    rcases hd with ⟨e, _, b, c, _⟩ | ⟨e, a, b, c, d, _⟩ | ⟨e, a, _⟩
    · exact Or.inr (Or.inr ⟨e, b, c⟩)
    · exact Or.inl ⟨e, a, b, c, d⟩
    · exact Or.inr (Or.inl ⟨e, a⟩))
  have key : ∀ y, InCube y → D.phys0 (fun _ => k) (toV3 y) 0 = k := by
    intro y hy
    have one := C28_partition_of_unity ns ps types.2.2 D.S.L0 hS hr.1 hr.2 (tt ▸ hu _ _ _ h.t) (hu _ _ _ h.z) y hy.1 hy.2.1 hy.2.2
    rw [h.phys0_eq]
    show discreteFunction D.S.L0 (fun _ => k) D.E0 (fromV3 (toV3 y)) 0 = _
    rw [fromV3_toV3]
    obtain ⟨S, _, ⟨_, rfl⟩ | ⟨hp, _⟩⟩ := Admissible.cases' h.built
    · have e : (fun _ => k : Fin (DeRham.ofPolar S F ns.2.1 false).m0 → ℝ) = k • fun _ => (1 : ℝ) := by funext _; simp
      rw [e]
      unfold discreteFunction
      rw [smul_vecMul, smul_dotProduct]
      unfold discreteFunction at one
      exact (congrArg (k • ·) one).trans (by simp)
    · cases hp
  rw [projector0_congr h g (D.phys0 fun _ => k) fun y hy => by rw [hg y hy, key y hy], ((C36_projection_reproduces h).1 _).2, key x hx]

/-- Non-vacuity: the piecewise quadratic functions `x² + y z` on a clamped sequence. -/
example : ∃ D, Admissible (5, 5, 5) (2, 2, 2) 3 ("clamped", "clamped", "clamped") (fun y => y) false false D ∧ ∀ x, InCube x →
    D.phys0 (D.M0⁻¹ *ᵥ D.projector0 fun y _ => y 0 ^ 2 + y 1 * y 2) (toV3 x) 0 = x.1 ^ 2 + x.2.1 * x.2.2 := by
  obtain ⟨D, h⟩ := Admissible.exists (ns := (5, 5, 5)) (ps := (2, 2, 2)) (q := 3) (types := ("clamped", "clamped", "clamped"))
    (fun y => y) false false (by norm_num) (by unfold DirOK; norm_num) (by unfold DirOK; norm_num) (by unfold DirOK; norm_num)
    (by intro h; cases h) fun x => by rw [jacobianDeterminant_id]; norm_num
  refine ⟨D, h, fun x hx => ?_⟩
  have := C89_polynomials h rfl 2 (fun t => if t = 0 then Polynomial.X ^ 2 else 1) (fun t => if t = 0 then 1 else Polynomial.X)
    (fun t => if t = 0 then 1 else Polynomial.X) (by intro t _; split_ifs <;> simp) (by intro t _; split_ifs <;> simp) (by intro t _; split_ifs <;> simp)
    (fun y _ => y 0 ^ 2 + y 1 * y 2) (by intro y _; simp [sum_range_succ, toV3]) x hx
  rw [this]
  simp [toV3]

end

end Mrx.Props
