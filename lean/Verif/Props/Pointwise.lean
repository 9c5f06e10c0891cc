import Verif.Proofs.Case
import Verif.Props.Laplace

/-!
# C33 continued: the strong operators are the exact derivatives of the discrete fields
-/

set_option linter.unusedSectionVars false
set_option linter.unusedVariables false

namespace Mrx.Props
open Finset Spec Matrix DeRham

/-- Partial derivatives of a linear combination; terms with zero coefficient need not be differentiable. -/
theorem hasPartial_sum {n : Nat} (c : Fin n → ℝ) (f : Fin n → ℝ × ℝ × ℝ → ℝ) (v : Fin n → ℝ) {dir : Nat} {x : ℝ × ℝ × ℝ}
    (h : ∀ i, c i = 0 ∨ HasPartial (f i) dir (v i) x) : HasPartial (fun y => ∑ i, c i * f i y) dir (∑ i, c i * v i) x := by
  unfold HasPartial at *
  have e : line (fun y => ∑ i, c i * f i y) x dir = fun t => ∑ i, c i * line (f i) x dir t := by
    rcases dir with _ | _ | _ <;> rfl
  rw [e]
  have := HasDerivAt.fun_sum (u := Finset.univ) (A := fun i t => c i * line (f i) x dir t) (A' := fun i => c i * v i)
    (x := coord x dir) fun i _ => by
      rcases h i with h0 | h1
      · simp only [h0, zero_mul]; exact hasDerivAt_const _ _
      · exact h1.const_mul (c i)
  exact this

section
variable {ns ps : Nat × Nat × Nat} {q : Nat} {types : String × String × String} {F : V3 → V3} {polar dirichlet : Bool} {D : DeRham}

theorem standard_of (h : Admissible ns ps q types F polar dirichlet D) (hc : Compatible ns types dirichlet) :
    Standard ns ps q types.2.1 types.2.2 D.S := by
  have hs := Admissible.seq h.built
  have hr := h.r
  have ht := h.t
  have hz := h.z
  obtain ⟨t1, t2, t3⟩ := types
  have e := hc.r
  have e2 := hc.t
  have e3 := hc.z
  simp only [] at e e2 e3 hr ht hz
  subst e
  simp only [DirOK, show ¬ ("clamped" = "periodic") by decide, show ¬ ("clamped" = "constant") by decide, false_and, or_false,
    true_and, e2, e3, false_or] at hr ht hz
  refine ⟨hs, ?_, ?_, by omega, h.q10, hr.2.1, hr.2.2.1, by rcases ht with a | a <;> omega, by rcases hz with a | a <;> omega⟩
  · rcases ht with a | a
    · exact Or.inl a.1
    · exact Or.inr a.1
  · rcases hz with a | a
    · exact Or.inl a.1
    · exact Or.inr a.1

/-- A coefficient either vanishes or its radial index is the last one exactly when it equals `nt - 1`. -/
theorem last_or_zero {d : Dims} (hk : Dims.validDegree d.k) (v : Fin d.n → ℝ) {nr nt : Nat} (hnr1 : 1 ≤ nr) (Z : Nat → Prop)
    (hl : nr = nt ∨ ∀ i, Seq.Seam nr nt i → ∀ c j l, Z c → d.InRange c i j l → coef d v c i j l = 0)
    (hr : ∀ c i j l, d.InRange c i j l → i < nr) (i : Fin d.n) :
    v i = 0 ∨ (Z (d.unravelIndex i).1 → ((d.unravelIndex i).2.1 = nr - 1 ↔ (d.unravelIndex i).2.1 = nt - 1)) := by
  by_cases hZ : Z (d.unravelIndex i).1
  case neg => exact Or.inr fun a => absurd a hZ
  obtain ⟨h1, h2⟩ := d.unravelIndex_inRange hk i.2
  rcases hl with rfl | hl
  · exact Or.inr fun _ => Iff.rfl
  · by_cases e : Seq.Seam nr nt (d.unravelIndex i).2.1
    · left
      have := hl _ e _ _ _ hZ h1
      rw [PolarOp.coef_eq hk h1] at this
      simp only [h2] at this
      exact this
    · right
      intro _
      have := hr _ _ _ _ h1
      unfold Seq.Seam at e
      omega

theorem discrete_sum {m : Nat} (Λ : Form ℝ) (E : Matrix (Fin m) (Fin Λ.dims.n) ℝ) (u : Fin m → ℝ) (comp : Nat) :
    (fun y => discreteFunction Λ u E y comp) = fun y => ∑ i, (Eᵀ *ᵥ u) i * Λ.evaluate y i comp := by
  funext y
  unfold discreteFunction dotProduct
  rw [mulVec_transpose]

theorem evaluate_sum (g : Getter) {n : Nat} (c : Fin n → ℝ) (j k : Nat) : evaluateAtXq g c j k = ∑ i, c i * g i j k := by
  unfold evaluateAtXq; exact Finset.sum_congr rfl fun i _ => mul_comm _ _

/-- The tabulated gradients are the partial derivatives, for every basis function that occurs in the extracted space. -/
theorem grad_table (h : Admissible ns ps q types F polar dirichlet D) (hc : Compatible ns types dirichlet) (u : Fin D.m0 → ℝ) (j : Nat)
    (x : ℝ × ℝ × ℝ) (hj : D.S.Q.x[j]? = some x) (i : Fin D.S.L0.dims.n) : (D.E0ᵀ *ᵥ u) i = 0 ∨
      ∀ dir < 3, HasPartial (fun y => D.S.L0.evaluate y i 0) dir (D.S.getDLambda0 i j dir) x := by
  have he := h.exact hc
  have hs := standard_of h hc
  have hd := h.dims0
  have enr : D.S.L0.dims.nr = ns.1 := by rw [hd]
  have ent : D.S.L0.dims.nt = ns.2.1 := by rw [hd]
  have hlast := he.last0 u
  have hnr1 := he.diff.nr1
  have h0 : D.S.L0.dims.k = 0 := h.degrees.1
  rcases last_or_zero (nr := ns.1) (nt := ns.2.1) (by rw [h0]; simp [Dims.validDegree]) (D.E0ᵀ *ᵥ u) (by omega) (fun _ => True) (by
      rw [← enr, ← ent]
      rcases hlast with a | a
      · exact Or.inl a
      · refine Or.inr fun i hi c j l _ hin => ?_
        have hcc := hin.comp_lt
        simp [Dims.shape, h0] at hcc
        subst hcc
        simp [Dims.InRange, Dims.cshape, Dims.shape, h0] at hin
        exact a i hi j hin.2.1 l hin.2.2) (by
      intro c i j l hin
      have hcc := hin.comp_lt
      simp [Dims.shape, h0] at hcc
      subst hcc
      simp [Dims.InRange, Dims.cshape, Dims.shape, h0] at hin
      omega) i with a | a
  · exact Or.inl a
  · exact Or.inr (getter_gradient hs j x hj i i.2 (a trivial) fun _ => hc.nz)

/-- **C76** (for the sizes of `Compatible`; for no other sizes: ExactIff2) at every quadrature point, the discrete 1-form `strong_grad @ u` is the gradient of the discrete
function `u`: its components are the partial derivatives. -/
theorem C76_grad_is_exact (h : Admissible ns ps q types F polar dirichlet D) (hc : Compatible ns types dirichlet)
    (u : Fin D.m0 → ℝ) (x : ℝ × ℝ × ℝ) (hx : x ∈ D.S.Q.x) (dir : Nat) (hdir : dir < 3) :
    HasPartial (fun y => discreteFunction D.S.L0 u D.E0 y 0) dir (discreteFunction D.S.L1 (D.strongGrad *ᵥ u) D.E1 x dir) x := by
  obtain ⟨j, hj⟩ := List.mem_iff_getElem?.mp hx
  have he := h.exact hc
  rw [← (C39_evaluate_is_discrete_function h j x hj).2.1 _ dir hdir, ← (grad_spec he u).1 j dir hdir, discrete_sum, evaluate_sum]
  refine hasPartial_sum _ _ _ fun i => ?_
  exact (grad_table h hc u j x hj i).imp id fun a => a dir hdir

/-- Case: the standard case, at any quadrature point (there are some). -/
example (polar dirichlet : Bool) (u) : ∃ x ∈ (Case.D polar dirichlet).S.Q.x, ∀ dir < 3,
    HasPartial (fun y => discreteFunction (Case.D polar dirichlet).S.L0 u (Case.D polar dirichlet).E0 y 0) dir
      (discreteFunction (Case.D polar dirichlet).S.L1 ((Case.D polar dirichlet).strongGrad *ᵥ u) (Case.D polar dirichlet).E1 x dir) x := by
  obtain ⟨x, hx⟩ := Case.point polar dirichlet
  exact ⟨x, hx, C76_grad_is_exact (Case.adm polar dirichlet) (Case.compat dirichlet) u x hx⟩

/-- The tabulated curls are the curls, for every basis function that occurs in the extracted space. -/
theorem curl_table (h : Admissible ns ps q types F polar dirichlet D) (hc : Compatible ns types dirichlet) (v : Fin D.m1 → ℝ) (j : Nat)
    (x : ℝ × ℝ × ℝ) (hj : D.S.Q.x[j]? = some x) (i : Fin D.S.L1.dims.n) : ∃ P : Nat → Nat → ℝ, (D.E1ᵀ *ᵥ v) i = 0 ∨
      ((∀ comp < 3, ∀ dir < 3, comp ≠ dir → HasPartial (fun y => D.S.L1.evaluate y i comp) dir (P comp dir) x) ∧
      D.S.getDLambda1 i j 0 = P 2 1 - P 1 2 ∧ D.S.getDLambda1 i j 1 = P 0 2 - P 2 0 ∧ D.S.getDLambda1 i j 2 = P 1 0 - P 0 1) := by
  have he := h.exact hc
  have hs := standard_of h hc
  have hd := h.dims0
  have hd1 := (Seq.nr_eq he.q.wf).1
  have enr : D.S.L0.dims.nr = ns.1 := by rw [hd]
  have ent : D.S.L0.dims.nt = ns.2.1 := by rw [hd]
  have hlast := he.last1 v
  have hnr1 := he.diff.nr1
  have hdr := he.diff.dr
  have hdt := he.diff.dt
  have hdz := he.diff.dz
  have hk1 : D.S.L1.dims.k = 1 := h.degrees.2.1
  have rng : ∀ c i j l, D.S.L1.dims.InRange c i j l → (c = 0 ∧ i + 1 < ns.1) ∨
      ((c = 1 ∨ c = 2) ∧ i < ns.1 ∧ j < D.S.L0.dims.nt ∧ l < D.S.L0.dims.nz) := by
    intro c i j l hin
    have hcc := hin.comp_lt
    simp [Dims.shape, hk1] at hcc
    rw [hd1] at hin
    interval_cases c <;> simp [Dims.InRange, Dims.cshape, Dims.shape] at hin <;> omega
  rcases last_or_zero (nr := ns.1) (nt := ns.2.1) (by rw [hk1]; simp [Dims.validDegree]) (D.E1ᵀ *ᵥ v) (by omega) (fun c => c ≠ 0) (by
      rw [← enr, ← ent]
      rcases hlast with a | a
      · exact Or.inl a
      · refine Or.inr fun i hi c j l hZ hin => ?_
        rcases rng _ _ _ _ hin with b | b
        · exact absurd b.1 hZ
        · exact a c b.1 i hi j b.2.2.1 l b.2.2.2) (by
      intro c i j l hin
      rcases rng _ _ _ _ hin with b | b <;> omega) i with a | a
  · exact ⟨fun _ _ => 0, Or.inl a⟩
  · obtain ⟨P, hP⟩ := getter_curl hs j x hj i i.2 a fun _ _ => hc.nz
    exact ⟨P, Or.inr hP⟩

/-- **C76** (for the sizes of `Compatible`; for no other sizes: ExactIff2) at every quadrature point, `strong_curl @ v` is the curl of the discrete 1-form `v`. -/
theorem C76_curl_is_exact (h : Admissible ns ps q types F polar dirichlet D) (hc : Compatible ns types dirichlet)
    (v : Fin D.m1 → ℝ) (x : ℝ × ℝ × ℝ) (hx : x ∈ D.S.Q.x) :
    ∃ P : Nat → Nat → ℝ,
      (∀ comp < 3, ∀ dir < 3, comp ≠ dir → HasPartial (fun y => discreteFunction D.S.L1 v D.E1 y comp) dir (P comp dir) x) ∧
      discreteFunction D.S.L2 (D.strongCurl *ᵥ v) D.E2 x 0 = P 2 1 - P 1 2 ∧
      discreteFunction D.S.L2 (D.strongCurl *ᵥ v) D.E2 x 1 = P 0 2 - P 2 0 ∧
      discreteFunction D.S.L2 (D.strongCurl *ᵥ v) D.E2 x 2 = P 1 0 - P 0 1 := by
  obtain ⟨j, hj⟩ := List.mem_iff_getElem?.mp hx
  have he := h.exact hc
  have key : ∀ i : Fin D.S.L1.dims.n, ∃ P : Nat → Nat → ℝ, (D.E1ᵀ *ᵥ v) i = 0 ∨
      ((∀ comp < 3, ∀ dir < 3, comp ≠ dir → HasPartial (fun y => D.S.L1.evaluate y i comp) dir (P comp dir) x) ∧
      D.S.getDLambda1 i j 0 = P 2 1 - P 1 2 ∧ D.S.getDLambda1 i j 1 = P 0 2 - P 2 0 ∧ D.S.getDLambda1 i j 2 = P 1 0 - P 0 1) := curl_table h hc v j x hj
  choose P hP using key
  have val : ∀ (k a b c d : Nat), (∀ i, (D.E1ᵀ *ᵥ v) i = 0 ∨ D.S.getDLambda1 i j k = P i a b - P i c d) → k < 3 →
      discreteFunction D.S.L2 (D.strongCurl *ᵥ v) D.E2 x k = (∑ i, (D.E1ᵀ *ᵥ v) i * P i a b) - ∑ i, (D.E1ᵀ *ᵥ v) i * P i c d := by
    intro k a b c d hg hk
    rw [← (C39_evaluate_is_discrete_function h j x hj).2.2.1 _ k hk, ← (curl_spec he v).1 j k hk, evaluate_sum, ← Finset.sum_sub_distrib]
    refine Finset.sum_congr rfl fun i _ => ?_
    rcases hg i with e | e
    · rw [e]; ring
    · rw [e]; ring
  refine ⟨fun comp dir => ∑ i, (D.E1ᵀ *ᵥ v) i * P i comp dir, fun comp hcomp dir hdir hne => ?_, ?_, ?_, ?_⟩
  · rw [discrete_sum]
    refine hasPartial_sum _ _ _ fun i => ?_
    rcases hP i with a | a
    · exact Or.inl a
    · exact Or.inr (a.1 comp hcomp dir hdir hne)
  · exact val 0 2 1 1 2 (fun i => (hP i).imp id fun a => a.2.1) (by omega)
  · exact val 1 0 2 2 0 (fun i => (hP i).imp id fun a => a.2.2.1) (by omega)
  · exact val 2 1 0 0 1 (fun i => (hP i).imp id fun a => a.2.2.2) (by omega)

/-- Case: the standard case, at any quadrature point. -/
example (polar dirichlet : Bool) := C76_curl_is_exact (Case.adm polar dirichlet) (Case.compat dirichlet)

/-- The tabulated divergences are the divergences, for every basis function that occurs in the extracted space. -/
theorem div_table (h : Admissible ns ps q types F polar dirichlet D) (hc : Compatible ns types dirichlet) (w : Fin D.m2 → ℝ) (j : Nat)
    (x : ℝ × ℝ × ℝ) (hj : D.S.Q.x[j]? = some x) (i : Fin D.S.L2.dims.n) : ∃ P : Nat → ℝ, (D.E2ᵀ *ᵥ w) i = 0 ∨
      ((∀ comp < 3, HasPartial (fun y => D.S.L2.evaluate y i comp) comp (P comp) x) ∧ D.S.getDLambda2 i j 0 = P 0 + P 1 + P 2) := by
  have he := h.exact hc
  have hs := standard_of h hc
  have hd := h.dims0
  have hd2 := (Seq.nr_eq he.q.wf).2.1
  have enr : D.S.L0.dims.nr = ns.1 := by rw [hd]
  have ent : D.S.L0.dims.nt = ns.2.1 := by rw [hd]
  have hlast := he.last2 w
  have hnr1 := he.diff.nr1
  have hdr := he.diff.dr
  have hdt := he.diff.dt
  have hdz := he.diff.dz
  have hk2 : D.S.L2.dims.k = 2 := h.degrees.2.2.1
  have rng : ∀ c i j l, D.S.L2.dims.InRange c i j l → ((c = 1 ∨ c = 2) ∧ i + 1 < ns.1) ∨
      (c = 0 ∧ i < ns.1 ∧ j < D.S.L0.dims.nt ∧ l < D.S.L0.dims.nz) := by
    intro c i j l hin
    have hcc := hin.comp_lt
    simp [Dims.shape, hk2] at hcc
    rw [hd2] at hin
    interval_cases c <;> simp [Dims.InRange, Dims.cshape, Dims.shape] at hin <;> omega
  rcases last_or_zero (nr := ns.1) (nt := ns.2.1) (by rw [hk2]; simp [Dims.validDegree]) (D.E2ᵀ *ᵥ w) (by omega) (fun c => c = 0) (by
      rw [← enr, ← ent]
      rcases hlast with a | a
      · exact Or.inl a
      · refine Or.inr fun i hi c j l hZ hin => ?_
        rcases rng _ _ _ _ hin with b | b
        · omega
        · obtain ⟨rfl, b⟩ := b
          exact a i hi j b.2.1 l b.2.2) (by
      intro c i j l hin
      rcases rng _ _ _ _ hin with b | b <;> omega) i with a | a
  · exact ⟨fun _ => 0, Or.inl a⟩
  · obtain ⟨P, hP⟩ := getter_divergence hs j x hj i i.2 a fun _ _ => hc.nz
    exact ⟨P, Or.inr hP⟩

/-- **C76** (for the sizes of `Compatible`; for no other sizes: ExactIff2) at every quadrature point, `strong_div @ w` is the divergence of the discrete 2-form `w`. -/
theorem C76_div_is_exact (h : Admissible ns ps q types F polar dirichlet D) (hc : Compatible ns types dirichlet)
    (w : Fin D.m2 → ℝ) (x : ℝ × ℝ × ℝ) (hx : x ∈ D.S.Q.x) :
    ∃ P : Nat → ℝ, (∀ comp < 3, HasPartial (fun y => discreteFunction D.S.L2 w D.E2 y comp) comp (P comp) x) ∧
      discreteFunction D.S.L3 (D.strongDiv *ᵥ w) D.E3 x 0 = P 0 + P 1 + P 2 := by
  obtain ⟨j, hj⟩ := List.mem_iff_getElem?.mp hx
  have he := h.exact hc
  have key : ∀ i : Fin D.S.L2.dims.n, ∃ P : Nat → ℝ, (D.E2ᵀ *ᵥ w) i = 0 ∨
      ((∀ comp < 3, HasPartial (fun y => D.S.L2.evaluate y i comp) comp (P comp) x) ∧ D.S.getDLambda2 i j 0 = P 0 + P 1 + P 2) := div_table h hc w j x hj
  choose P hP using key
  refine ⟨fun comp => ∑ i, (D.E2ᵀ *ᵥ w) i * P i comp, fun comp hcomp => ?_, ?_⟩
  · rw [discrete_sum]
    refine hasPartial_sum _ _ _ fun i => ?_
    rcases hP i with a | a
    · exact Or.inl a
    · exact Or.inr (a.1 comp hcomp)
  · rw [← (C39_evaluate_is_discrete_function h j x hj).2.2.2 _, ← (div_spec he w).1 j 0, evaluate_sum, ← Finset.sum_add_distrib,
      ← Finset.sum_add_distrib]
    refine Finset.sum_congr rfl fun i _ => ?_
    rcases hP i with e | e
    · rw [e]; ring
    · rw [e.2]; ring

/-- Case: the standard case, at any quadrature point. -/
example (polar dirichlet : Bool) := C76_div_is_exact (Case.adm polar dirichlet) (Case.compat dirichlet)

end
end Mrx.Props
