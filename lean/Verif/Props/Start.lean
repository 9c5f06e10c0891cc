import Verif.Proofs.Case
import Verif.Model.Scripts
import Verif.Proofs.Eigh
import Verif.Props.Diagnostics
import Verif.Props.Energy

/-!
# C77: the initial fields of the configuration scripts, and runs that start from them
-/

set_option linter.unusedSectionVars false
set_option linter.unusedVariables false

namespace Mrx.Props
open Finset Spec Matrix DeRham

section
variable {ns ps : Nat × Nat × Nat} {q : Nat} {types : String × String × String} {F : V3 → V3} {polar dirichlet : Bool} {D : DeRham}

/-- Square of a difference in the L2 product. -/
theorem l2_sub {d : Nat} (f g : V3 → Fin d → ℝ) (Q : Quad.Rule ℝ) (F : V3 → V3) :
    l2Product (fun x => f x - g x) (fun x => f x - g x) Q F = l2Product f f Q F - 2 * l2Product g f Q F + l2Product g g Q F := by
  unfold l2Product
  rw [Finset.mul_sum, ← Finset.sum_sub_distrib, ← Finset.sum_add_distrib]
  refine Finset.sum_congr rfl fun i _ => ?_
  rw [Finset.mul_sum, ← Finset.sum_sub_distrib, ← Finset.sum_add_distrib]
  refine Finset.sum_congr rfl fun j _ => ?_
  simp only [Pi.sub_apply]; ring

/-! ## Projected starts (`iter_islands.py`, `stell.py`) -/

/-- **C77** the field `P_Leray @ solve(M2, P2(B))` is divergence-free, its L2 products with all divergence-free discrete fields are those
of `B` itself, and a field that already is a divergence-free discrete field is returned unchanged. -/
theorem C77_projection (h : Admissible ns ps q types F polar dirichlet D) {X : Matrix (Fin D.m3) (Fin D.m3) ℝ} (hX : IsPinv D.dd3 X) :
    (∀ B, D.strongDiv *ᵥ D.divfreeProjection X B = 0) ∧
    (∀ B v, D.strongDiv *ᵥ v = 0 →
      l2Product (D.phys2 v) (D.phys2 (D.divfreeProjection X B)) D.S.Q F = l2Product (D.phys2 v) B D.S.Q F) ∧
    (∀ c, D.strongDiv *ᵥ c = 0 → D.divfreeProjection X (D.phys2 c) = c) := by
  obtain ⟨p1, _, p3, p4⟩ := C35_leray_projects h X hX
  refine ⟨fun B => p1 _, fun B v hv => ?_, fun c hc => ?_⟩
  · rw [← h.M2_l2]
    unfold divfreeProjection
    rw [← p4, p3 v hv, h.M2_l2, ← C36_projection_error_orthogonal h]
  · unfold divfreeProjection
    rw [((C36_projection_reproduces h).2.2.1 c).2, p3 c hc]

/-- Case: the standard case. -/
example (polar dirichlet : Bool) := C77_projection (Case.adm polar dirichlet) (Case.pinv_spec _)

/-- **C77** it is the best approximation: the squared L2 distance from `B` to any divergence-free discrete field exceeds the one to the
projection by the squared norm of the difference. -/
theorem C77_best_approximation (h : Admissible ns ps q types F polar dirichlet D) {X : Matrix (Fin D.m3) (Fin D.m3) ℝ}
    (hX : IsPinv D.dd3 X) (B : V3 → V3) (v : Fin D.m2 → ℝ) (hv : D.strongDiv *ᵥ v = 0) :
    l2Product (fun x => B x - D.phys2 v x) (fun x => B x - D.phys2 v x) D.S.Q F =
      l2Product (fun x => B x - D.phys2 (D.divfreeProjection X B) x) (fun x => B x - D.phys2 (D.divfreeProjection X B) x) D.S.Q F
      + D.norm2 (v - D.divfreeProjection X B) ^ 2 := by
  have m2 := (C31_mass_matrices_definite h).2.2.1
  obtain ⟨p1, p2, _⟩ := C77_projection h hX
  rw [l2_sub, l2_sub, ← p2 B v hv, ← p2 B _ (p1 B), ← h.M2_l2, ← h.M2_l2, ← h.M2_l2]
  unfold norm2
  rw [Real.sq_sqrt (m2.psd.2 _)]
  simp only [mulVec_sub, dotProduct_sub, sub_dotProduct]
  rw [sym_dot m2.1 (D.divfreeProjection X B) v]
  ring

/-- Case: the standard case, the field `(y, -x, 1)` and any curl. -/
example (polar dirichlet : Bool) (A : Fin (Case.D polar dirichlet).m1 → ℝ) :=
  C77_best_approximation (Case.adm polar dirichlet) (Case.pinv_spec _) (fun x => ![x 1, -x 0, 1]) ((Case.D polar dirichlet).strongCurl *ᵥ A)
    (by rw [mulVec_mulVec, (C33_exactness (Case.adm polar dirichlet)).2.1, zero_mulVec])

theorem norm_normalize (h : Admissible ns ps q types F polar dirichlet D) (B : Fin D.m2 → ℝ) (hB : B ≠ 0) : D.norm2 (D.normalize B) = 1 := by
  unfold DeRham.normalize
  have hp : 0 < D.norm2 B := lt_of_le_of_ne (Real.sqrt_nonneg _) fun e => hB ((C74_definite h B).2.2.1.mp e.symm)
  rw [(C74_norm_is_norm h B B _).1, abs_of_pos (inv_pos.mpr hp), inv_mul_cancel₀ hp.ne']

theorem div_normalize (B : Fin D.m2 → ℝ) (hB : D.strongDiv *ᵥ B = 0) : D.strongDiv *ᵥ D.normalize B = 0 := by
  unfold DeRham.normalize; rw [mulVec_smul, hB, smul_zero]

/-- **C77** the initial field of `iter_islands.py` and `stell.py` is divergence-free for every field, perturbation and configuration; it
has norm 1 and energy 1/2 when no perturbation is applied at iteration 0; when one is, its norm differs from 1 by at most
`pert_strength`. (The projected fields must not vanish.) -/
theorem C77_projected_start (h : Admissible ns ps q types F polar dirichlet D) {X : Matrix (Fin D.m3) (Fin D.m3) ℝ} (hX : IsPinv D.dd3 X)
    (after : Int) (strength : ℝ) (B dB : V3 → V3) :
    D.strongDiv *ᵥ D.projectedStart X after strength B dB = 0 ∧
    (D.divfreeProjection X B ≠ 0 → ¬ (after = 0 ∧ strength > 0) → D.norm2 (D.projectedStart X after strength B dB) = 1 ∧
      D.energy (D.projectedStart X after strength B dB) = 1 / 2 ∧
      ∃ c : ℝ, 0 < c ∧ D.projectedStart X after strength B dB = c • D.divfreeProjection X B) ∧
    (D.divfreeProjection X B ≠ 0 → D.divfreeProjection X dB ≠ 0 → after = 0 → strength > 0 →
      |D.norm2 (D.projectedStart X after strength B dB) - 1| ≤ strength ∧
      ∃ c e : ℝ, 0 < c ∧ 0 < e ∧ D.projectedStart X after strength B dB = c • D.divfreeProjection X B + e • D.divfreeProjection X dB) := by
  obtain ⟨p1, _, _⟩ := C77_projection h hX
  have hpos : ∀ B : Fin D.m2 → ℝ, B ≠ 0 → 0 < (D.norm2 B)⁻¹ := fun B hB =>
    inv_pos.mpr (lt_of_le_of_ne (Real.sqrt_nonneg _) fun e => hB ((C74_definite h B).2.2.1.mp e.symm))
  unfold projectedStart
  dsimp only
  refine ⟨?_, fun h1 h2 => ?_, fun h1 h2 h3 h4 => ?_⟩
  · split_ifs
    · rw [mulVec_add, mulVec_smul, div_normalize _ (p1 B), div_normalize _ (p1 dB), smul_zero, add_zero]
    · exact div_normalize _ (p1 B)
  · rw [if_neg h2]
    refine ⟨norm_normalize h _ h1, ?_, _, hpos _ h1, rfl⟩
    have e := norm_normalize h _ h1
    have m2 := (C31_mass_matrices_definite h).2.2.1
    unfold energy
    have : D.norm2 (D.normalize (D.divfreeProjection X B)) ^ 2 = 1 := by rw [e]; norm_num
    unfold norm2 at this
    rw [Real.sq_sqrt (m2.psd.2 _)] at this
    rw [this]; norm_num
  · rw [if_pos ⟨h3, h4⟩]
    have e1 := norm_normalize h _ h1
    have e2 := norm_normalize h _ h2
    obtain ⟨b, hb⟩ : ∃ b, b = D.normalize (D.divfreeProjection X B) := ⟨_, rfl⟩
    obtain ⟨d, hd⟩ : ∃ d, d = D.normalize (D.divfreeProjection X dB) := ⟨_, rfl⟩
    refine ⟨?_, _, strength * (D.norm2 (D.divfreeProjection X dB))⁻¹, hpos _ h1, mul_pos h4 (hpos _ h2), ?_⟩
    · rw [← hb, ← hd]
      rw [← hb] at e1
      rw [← hd] at e2
      have t1 := (C74_norm_is_norm h b (strength • d) 0).2
      have t2 := (C74_norm_is_norm h (b + strength • d) (-(strength • d)) 0).2
      rw [add_neg_cancel_right] at t2
      rw [← neg_smul, (C74_norm_is_norm h d d (-strength)).1, abs_neg, abs_of_pos h4, e2, e1] at t2
      rw [(C74_norm_is_norm h d d strength).1, abs_of_pos h4, e2, e1] at t1
      rw [abs_le]
      constructor <;> linarith
    · unfold DeRham.normalize; rw [smul_smul]

/-- Case: the standard case, the field `(y, -x, 1)` and its perturbation `(0, 0, x)`. -/
example (polar dirichlet : Bool) := C77_projected_start (Case.adm polar dirichlet) (Case.pinv_spec _) 0 (1 / 10) (fun x => ![x 1, -x 0, 1]) (fun x => ![0, 0, x 0])

/-! ## Harmonic starts (`solovev.py`) -/

theorem symmetrize_eq {n : Nat} {A : Matrix (Fin n) (Fin n) ℝ} (hA : Aᵀ = A) : symmetrize A = A := by
  unfold symmetrize; rw [hA, ← two_smul ℝ, smul_smul]; norm_num

theorem ker_mul_dd {n : Nat} {M A : Matrix (Fin n) (Fin n) ℝ} (hM : SPD M) :
    LinearMap.ker (M * A).mulVecLin = LinearMap.ker A.mulVecLin := by
  ext v
  simp only [LinearMap.mem_ker, mulVecLin_apply]
  constructor
  · intro h0
    have : M⁻¹ *ᵥ ((M * A) *ᵥ v) = A *ᵥ v := by rw [mulVec_mulVec, ← Matrix.mul_assoc, hM.inv_mul, Matrix.one_mul]
    rw [← this, h0, mulVec_zero]
  · intro h0; rw [← mulVec_mulVec, h0, mulVec_zero]

/-- **C77** on a polar sequence with Dirichlet conditions, for every resolution, the initial field of `solovev.py`, the first eigenvector
of `eigh(M2 @ dd2)` normalised, is a discrete harmonic field: divergence-free, weakly curl-free, of norm 1 and energy 1/2. Apart from its
sign it is the only such field exactly if there are at most as many radial as poloidal splines. -/
theorem C77_harmonic_start (h : Admissible ns ps q types F true true D) {w : Fin D.m2 → ℝ} {V : Matrix (Fin D.m2) (Fin D.m2) ℝ}
    (hV : IsEigh (symmetrize (D.M2 * D.dd2)) w V) (k : Fin D.m2) (hk : k.1 = 0) :
    D.strongDiv *ᵥ D.harmonicStart V k = 0 ∧ D.weakCurl *ᵥ D.harmonicStart V k = 0 ∧ D.dd2 *ᵥ D.harmonicStart V k = 0 ∧
    D.norm2 (D.harmonicStart V k) = 1 ∧ D.energy (D.harmonicStart V k) = 1 / 2 ∧
    ((∀ B, D.strongDiv *ᵥ B = 0 → D.weakCurl *ᵥ B = 0 → D.norm2 B = 1 → B = D.harmonicStart V k ∨ B = -D.harmonicStart V k) ↔ ns.1 ≤ ns.2.1) := by
  have m2 := (C31_mass_matrices_definite h).2.2.1
  have s2 := (C34_laplacians_semidefinite h).2.2.1
  rw [symmetrize_eq s2.1] at hV
  obtain ⟨t1, t2, t3, _⟩ := h.polar rfl
  have hd := (C73_harmonic_dimensions h ⟨t1, by rw [t2]; decide, t3⟩).2.2.1
  have hd' : (codeBetti true true ns.1 ns.2.1).2.2.1 = if ns.1 ≤ ns.2.1 then 1 else 2 := by
    simp only [codeBetti]; split_ifs <;> rfl
  rw [hd'] at hd
  have hb : 0 < Module.finrank ℝ (LinearMap.ker (D.M2 * D.dd2).mulVecLin) := by
    rw [ker_mul_dd m2, hd]; split_ifs <;> omega
  have hw : w k = 0 := (hV.toG.zero_iff s2 k).mpr (by omega)
  have hcol := hV.toG.col k
  rw [hw, zero_smul, ← mulVec_mulVec] at hcol
  have hdd : D.dd2 *ᵥ V.col k = 0 := by
    have : M2 D *ᵥ (D.dd2 *ᵥ V.col k) = 0 := hcol
    rw [← one_mulVec (D.dd2 *ᵥ V.col k), ← m2.inv_mul, ← mulVec_mulVec, this, mulVec_zero]
  have hne : V.col k ≠ 0 := by
    intro e
    have := hV.toG.col_dot k k
    rw [e, if_pos rfl, zero_dotProduct] at this
    exact zero_ne_one this
  have hdd' : D.dd2 *ᵥ D.harmonicStart V k = 0 := by
    unfold harmonicStart DeRham.normalize; rw [mulVec_smul, hdd, smul_zero]
  have hk2 := (C34_kernels_are_harmonic h).2.2.1
  obtain ⟨a, b⟩ := (hk2 _).mp hdd'
  have hn : D.norm2 (D.harmonicStart V k) = 1 := norm_normalize h _ hne
  have he : ∀ B, D.norm2 B = 1 → B ⬝ᵥ D.M2 *ᵥ B = 1 := fun B e => by
    have : D.norm2 B ^ 2 = 1 := by rw [e]; norm_num
    unfold norm2 at this
    rwa [Real.sq_sqrt (m2.psd.2 _)] at this
  have hne' : D.harmonicStart V k ≠ 0 := by
    intro e
    rw [e] at hn
    rw [(C74_definite h 0).2.2.1.mpr rfl] at hn
    exact zero_ne_one hn
  refine ⟨a, b, hdd', hn, ?_, fun hall => ?_, fun hs B h1 h2 h3 => ?_⟩
  · unfold energy; rw [he _ hn]; norm_num
  · by_contra hs
    rw [if_neg hs] at hd
    have : Module.finrank ℝ (LinearMap.ker D.dd2.mulVecLin) ≤ 1 := by
      refine finrank_le_one (⟨D.harmonicStart V k, by rw [LinearMap.mem_ker, mulVecLin_apply]; exact hdd'⟩ : LinearMap.ker D.dd2.mulVecLin)
        fun ⟨y, hy⟩ => ?_
      rw [LinearMap.mem_ker, mulVecLin_apply] at hy
      by_cases hy0 : y = 0
      · exact ⟨0, Subtype.ext (by show (0 : ℝ) • D.harmonicStart V k = y; rw [zero_smul, hy0])⟩
      · have hp : 0 < D.norm2 y := lt_of_le_of_ne (Real.sqrt_nonneg _) fun e => hy0 ((C74_definite h y).2.2.1.mp e.symm)
        have h0 : D.dd2 *ᵥ D.normalize y = 0 := by unfold DeRham.normalize; rw [mulVec_smul, hy, smul_zero]
        obtain ⟨c1, c2⟩ := (hk2 _).mp h0
        have key : y = D.norm2 y • D.normalize y := by
          unfold DeRham.normalize; rw [smul_smul, mul_inv_cancel₀ hp.ne', one_smul]
        rcases hall _ c1 c2 (norm_normalize h y hy0) with e | e
        · exact ⟨D.norm2 y, Subtype.ext (by show D.norm2 y • D.harmonicStart V k = y; rw [← e, ← key])⟩
        · exact ⟨-D.norm2 y, Subtype.ext (by show (-D.norm2 y) • D.harmonicStart V k = y; rw [neg_smul, ← smul_neg, ← e, ← key])⟩
    omega
  · rw [if_pos hs] at hd
    have hB : D.dd2 *ᵥ B = 0 := (hk2 B).mpr ⟨h1, h2⟩
    obtain ⟨c, hcB⟩ := (finrank_eq_one_iff_of_nonzero' (⟨D.harmonicStart V k, by
        rw [LinearMap.mem_ker, mulVecLin_apply]; exact hdd'⟩ : LinearMap.ker D.dd2.mulVecLin)
        (by intro e; exact hne' (congrArg Subtype.val e))).mp hd ⟨B, by rw [LinearMap.mem_ker, mulVecLin_apply]; exact hB⟩
    have hcB : c • D.harmonicStart V k = B := congrArg Subtype.val hcB
    have hc1 : |c| = 1 := by
      rw [← hcB, (C74_norm_is_norm h (D.harmonicStart V k) (D.harmonicStart V k) c).1, hn, mul_one] at h3
      exact h3
    rcases eq_or_eq_neg_of_abs_eq hc1 with e | e
    · left; rw [← hcB, e, one_smul]
    · right; rw [← hcB, e, neg_one_smul]

/-- **C77** what the diagnostics say of any divergence-free, weakly curl-free field: no vector potential, no helicity, it is its own harmonic
component, no Lorentz force, no pressure. -/
theorem C77_harmonic_diagnostics (h : Admissible ns ps q types F polar dirichlet D) (B : Fin D.m2 → ℝ) (hB : D.weakCurl *ᵥ B = 0) :
    D.vectorPotential B = 0 ∧ D.harmonicComponent B = B ∧ D.helicity B = 0 ∧ D.lorentz B = 0 ∧ D.pressure B = 0 := by
  have a : D.vectorPotential B = 0 := by unfold vectorPotential; rw [hB, mulVec_zero]
  have l : D.lorentz B = 0 := by
    unfold lorentz
    rw [hB]
    have : D.P1x1to2 0 (D.P12 *ᵥ B) = 0 := by
      obtain ⟨r, hr, _⟩ := C38_cross_product_integrals h .two .one .one (by simp) (0 : Fin (D.mdim .one) → ℝ) (D.P12 *ᵥ B)
      have e := C38_linear_first h .two .one .one 1 (0 : Fin (D.mdim .one) → ℝ) (0 : Fin (D.mdim .one) → ℝ) (D.P12 *ᵥ B) r r r hr hr
        (by rw [smul_zero, add_zero]; exact hr)
      have e2 : D.P1x1to2 0 (D.P12 *ᵥ B) = r := by
        unfold P1x1to2 crossVec
        split
        · rename_i r' hr'
          exact Except.ok.inj (hr'.symm.trans hr)
        · rename_i x hx
          exact absurd (hx.symm.trans hr) (by intro hh; cases hh)
      rw [e2]
      rw [one_smul] at e
      exact left_eq_add.mp e
    rw [this, mulVec_zero]
  refine ⟨a, ?_, ?_, l, ?_⟩
  · unfold harmonicComponent; rw [a, mulVec_zero, sub_zero]
  · unfold helicity; rw [a, zero_dotProduct]
  · unfold pressure; rw [l, mulVec_zero, mulVec_zero, mulVec_zero, neg_zero]

end

/-! ## Runs -/

section
variable {ns ps : Nat × Nat × Nat} {q : Nat} {types : String × String × String} {F : V3 → V3} {polar dirichlet : Bool} {T : Stepper}
  (h : Admissible ns ps q types F polar dirichlet T.D)
include h

/-- **C77** every run of `iter_islands.py` or `stell.py` keeps the field divergence-free, and records divergence 0 only. -/
theorem C77_projected_run (hX : IsPinv T.D.dd3 T.pinv) (cfg : RelaxConfig) (B dB : V3 → V3) (dt eta : ℝ) (clock : Nat → ℝ) (start : ℝ) (k : Nat) :
    let s := T.initState (T.D.projectedStart T.pinv cfg.applyPertAfter cfg.pertStrength B dB) dt eta
    let l := relaxAfter cfg (T.env cfg.pertStrength dB clock) start s (emptyTrace _) k
    T.D.strongDiv *ᵥ l.state.Bn = 0 ∧ ∀ x ∈ l.trace.divergence, x = .fin 0 := by
  have e := (C77_projected_start h hX cfg.applyPertAfter cfg.pertStrength B dB).1
  exact ⟨(C45_divergence_free h hX cfg cfg.pertStrength dB clock start (T.initState _ dt eta) _ e e k).1,
    C45_recorded_divergence h hX cfg cfg.pertStrength dB clock start (T.initState _ dt eta) e e k⟩

/-- The midpoint update at a weakly curl-free field. -/
theorem update_stationary (hl : ∀ H, T.lstsq H 0 = 0) {B : T.Field} (hB : T.D.weakCurl *ᵥ B = 0) (s : T.St) (h1 : s.Bn = B)
    (h2 : s.Bguess = B) : T.update s = ⟨B, .fin 0, .fin 0, .fin 0⟩ := by
  have hm : T.Bmid s = B := by
    unfold Stepper.Bmid; rw [h1, h2, ← two_smul ℝ, smul_smul]; norm_num
  have hJ : T.J s = 0 := by unfold Stepper.J; rw [hm, hB]
  have hx : T.JxH s = 0 := by
    have := (C77_harmonic_diagnostics h B hB).2.2.2.1
    unfold DeRham.lorentz at this
    unfold Stepper.JxH Stepper.Hh
    rw [hm, hJ, ← hB]; exact this
  have hf : T.f s = 0 := by
    unfold Stepper.f; split_ifs
    · exact hx
    · rw [hx, mulVec_zero]
  have hu0 : T.u0 s = 0 := by
    unfold Stepper.u0
    rw [hf]
    induction T.gamma with
    | zero => rfl
    | succ n ih => rw [Function.iterate_succ_apply', ih, mulVec_zero]
  have hu : T.u s = 0 := by
    unfold Stepper.u; split_ifs
    · rw [hu0, mulVec_zero, mulVec_zero, hl, mulVec_zero]
    · exact hu0
  have hE : T.E s = 0 := by
    unfold Stepper.E
    rw [hJ, smul_zero, sub_zero, hu]
    obtain ⟨r, hr, _⟩ := C38_cross_product_integrals h .one .two .one (by simp) (0 : Fin (T.D.mdim .two) → ℝ) (T.Hh s)
    have e := C38_linear_first h .one .two .one 1 (0 : Fin (T.D.mdim .two) → ℝ) (0 : Fin (T.D.mdim .two) → ℝ) (T.Hh s) r r r hr hr
      (by rw [smul_zero, add_zero]; exact hr)
    have e2 : T.D.P2x1to1 0 (T.Hh s) = r := Except.ok.inj ((cross_211 h 0 (T.Hh s)).symm.trans hr)
    rw [one_smul] at e
    rw [e2, left_eq_add.mp e]; exact mulVec_zero _
  have hBn : T.Bnext s = B := by unfold Stepper.Bnext; rw [hE, mulVec_zero, smul_zero, add_zero, h1]
  have hz : T.D.norm2 (0 : T.Field) = 0 := by unfold DeRham.norm2; rw [zero_dotProduct, Real.sqrt_zero]
  unfold Stepper.update
  rw [hBn, h2, sub_self, hf, hu, hz]

/-- **C77** a weakly curl-free field (such as the harmonic start) is stationary: before a perturbation is due, whatever the step size, resistivity,
tolerances, number of iterations, regularisation, and for Newton steps too, the loop never changes the field. -/
theorem C77_stationary (hl : ∀ H, T.lstsq H 0 = 0) (cfg : RelaxConfig)
    (strength : ℝ) (dB : V3 → V3) (clock : Nat → ℝ) (start : ℝ) {B : T.Field} (hB : T.D.weakCurl *ᵥ B = 0) (dt eta : ℝ)
    (t : Trace T.Field) (k : Nat) (hn : cfg.pertStrength ≤ 0 ∨ cfg.applyPertAfter ≤ 0 ∨ (k : Int) < cfg.applyPertAfter) :
    (relaxAfter cfg (T.env strength dB clock) start (T.initState B dt eta) t k).state.Bn = B ∧
    (relaxAfter cfg (T.env strength dB clock) start (T.initState B dt eta) t k).state.Bguess = B := by
  have hu : ∀ s : T.St, s.Bn = B → s.Bguess = B → ((T.env strength dB clock).upd s).B = B := fun s h1 h2 => by
    show (T.update s).B = B
    rw [update_stationary h hl hB s h1 h2]
  induction k with
  | zero => exact ⟨rfl, rfl⟩
  | succ k ih =>
    replace ih := ih (hn.imp id (Or.imp id fun h => by push_cast at h; omega))
    rw [relaxAfter]
    generalize relaxAfter cfg (T.env strength dB clock) start (T.initState B dt eta) t k = l at ih
    obtain ⟨a, b⟩ := step_inv (P := (· = B)) cfg (T.env strength dB clock) hu l.state ih.1 ih.2
    unfold relaxIteration
    by_cases hs : l.stopped = true
    · rw [if_pos hs]; exact ih
    · rw [if_neg hs]
      dsimp only
      by_cases hr : rejected cfg ((T.env strength dB clock).step cfg l.state)
      · rw [if_pos hr]; exact ⟨a, a⟩
      · rw [if_neg hr]
        generalize (T.env strength dB clock).step cfg l.state = s' at a b
        dsimp only
        unfold acceptState
        dsimp only
        have hnp : ¬ (((k + 1 : Nat) : Int) = cfg.applyPertAfter ∧ cfg.pertStrength > 0) := by
          rintro ⟨e1, e2⟩
          rcases hn with hn | hn | hn
          · linarith
          · omega
          · omega
        rw [if_neg hnp]
        split_ifs <;> exact ⟨b, b⟩

/-- **C77** (finding) with a tolerance in [0, 1), at least one Picard iteration allowed and a positive force tolerance, the run from such a
field ends at iteration 1 (if there is one), with or without perturbation; unless iteration 1 is saved, the only recorded iteration is 0, and the average time per step that the script prints
before it saves its results raises `ZeroDivisionError` (in exact arithmetic). -/
theorem C77_harmonic_run_report (hl : ∀ H, T.lstsq H 0 = 0) (cfg : RelaxConfig)
    (ht0 : 0 ≤ cfg.solverTol) (ht1 : cfg.solverTol < 1) (hm : 0 < cfg.solverMaxit) (hf : 0 < cfg.forceTol)
    (strength : ℝ) (dB : V3 → V3) (clock : Nat → ℝ) (start : ℝ) {B : T.Field} (hB : T.D.weakCurl *ᵥ B = 0) (dt eta : ℝ)
    (final setupDone : ℝ) (k : Nat) :
    let l := relaxAfter cfg (T.env strength dB clock) start (T.initState B dt eta) (emptyTrace _) k
    (1 ≤ k → l.stopped = true) ∧ (∀ x ∈ l.trace.force, x = .fin 0) ∧
    ((1 % cfg.saveEvery ≠ 0 ∧ 1 ≠ cfg.maxit) ∨ k = 0 →
      l.trace.iterations = [0] ∧ averageStepTime final setupDone l.trace.iterations = .error "ZeroDivisionError: float division by zero") ∧
    (1 % cfg.saveEvery = 0 ∨ 1 = cfg.maxit → 1 ≤ k → l.trace.iterations = [0, 1] ∧
      averageStepTime final setupDone l.trace.iterations = .ok (final - setupDone)) := by
  have hstep : ∀ s : T.St, s.Bn = B → s.Bguess = B → ((T.env strength dB clock).step cfg s).picardResiduum = .fin 0 ∧
      ((T.env strength dB clock).step cfg s).forceNorm = .fin 0 := by
    intro s h1 h2
    have hR := C48_picard_terminates T.update cfg.solverTol cfg.solverMaxit s
    have hc := C48_first hR
    obtain ⟨n, hn1, hn2, _⟩ := hc
    -- every iterate has the field B
    have hall : ∀ j, (((midpointResiduum T.update)^[j] { s with picardResiduum := .fin 1, picardIterations := 0 }).Bn = B) ∧
        ((midpointResiduum T.update)^[j] { s with picardResiduum := .fin 1, picardIterations := 0 }).Bguess = B := fun j =>
      iterate_inv (P := (· = B)) T.update (fun s' a b => by rw [update_stationary h hl hB s' a b]) j _ h1 h2
    have hpos : n ≠ 0 := by
      rintro rfl
      have := (C48_result hR).1
      rw [hn2] at this
      simp [FV.le, not_le.mpr ht1] at this
      omega
    obtain ⟨j, rfl⟩ := Nat.exists_eq_succ_of_ne_zero hpos
    have e : (T.env strength dB clock).step cfg s = midpointResiduum T.update
        ((midpointResiduum T.update)^[j] { s with picardResiduum := .fin 1, picardIterations := 0 }) := by
      exact hn2.trans (Function.iterate_succ_apply' _ _ _)
    have hp := update_stationary h hl hB _ (hall j).1 (hall j).2
    rw [e]
    generalize ((midpointResiduum T.update)^[j] { s with picardResiduum := .fin 1, picardIterations := 0 }) = p at hp
    exact ⟨congrArg Update.residuum hp, congrArg Update.force hp⟩
  have hacc : ∀ s : T.St, s.Bn = B → s.Bguess = B → ¬ rejected cfg ((T.env strength dB clock).step cfg s) := fun s h1 h2 =>
    (C49_accepted_iff cfg _).mpr ⟨0, (hstep s h1 h2).1, ht0⟩
  have h0 : relaxAfter cfg (T.env strength dB clock) start (T.initState B dt eta) (emptyTrace _) 0 =
    relaxInit cfg (T.env strength dB clock) start (T.initState B dt eta) (emptyTrace _) := rfl
  obtain ⟨f0, f1⟩ := hstep (T.initState B dt eta) rfl rfl
  have hforce0 : (relaxInit cfg (T.env strength dB clock) start (T.initState B dt eta) (emptyTrace _)).trace.force = [.fin 0] := by
    show [] ++ [((T.env strength dB clock).step cfg (T.initState B dt eta)).forceNorm] = _
    rw [f1]; rfl
  have hit0 : (relaxInit cfg (T.env strength dB clock) start (T.initState B dt eta) (emptyTrace _)).trace.iterations = [0] := rfl
  have hl0 : (relaxInit cfg (T.env strength dB clock) start (T.initState B dt eta) (emptyTrace _)).stopped = false := rfl
  have hst0 : (relaxInit cfg (T.env strength dB clock) start (T.initState B dt eta) (emptyTrace _)).state = T.initState B dt eta := rfl
  obtain ⟨e1, e2, e3⟩ := relaxIteration_accept cfg (T.env strength dB clock) start 1 _ hl0 (by rw [hst0]; exact hacc _ rfl rfl)
  have hfa : ∀ s : T.St, (acceptState cfg (T.env strength dB clock) 1 s).forceNorm = s.forceNorm := by
    intro s; unfold acceptState; dsimp only; split_ifs <;> rfl
  have hrec : ∀ s : T.St, s.forceNorm = .fin 0 → ∀ t : Trace T.Field, t.force = [.fin 0] → t.iterations = [0] →
      ((record cfg (T.env strength dB clock) start 1 s t).force.getLastD .nan = .fin 0) ∧
      (∀ x ∈ (record cfg (T.env strength dB clock) start 1 s t).force, x = .fin 0) ∧
      ((1 % cfg.saveEvery ≠ 0 ∧ 1 ≠ cfg.maxit) → (record cfg (T.env strength dB clock) start 1 s t).iterations = [0]) ∧
      ((1 % cfg.saveEvery = 0 ∨ 1 = cfg.maxit) → (record cfg (T.env strength dB clock) start 1 s t).iterations = [0, 1]) := by
    intro s hs t ht hi
    unfold record
    by_cases hsv : 1 % cfg.saveEvery = 0 ∨ 1 = cfg.maxit
    · rw [if_pos hsv]
      refine ⟨?_, ?_, fun hh => ?_, fun _ => ?_⟩
      · simp [Trace.append, hs]
      · simp [Trace.append, hs, ht]
      · exact absurd hsv (by tauto)
      · simp [Trace.append, hi]
    · rw [if_neg hsv]
      exact ⟨by rw [ht]; rfl, by simp [ht], fun _ => hi, fun hh => absurd hh hsv⟩
  have hra := hrec (acceptState cfg (T.env strength dB clock) 1 ((T.env strength dB clock).step cfg (T.initState B dt eta)))
    ((hfa _).trans f1) _ hforce0 hit0
  have hstop : (relaxAfter cfg (T.env strength dB clock) start (T.initState B dt eta) (emptyTrace _) 1).stopped = true := by
    rw [relaxAfter]
    refine e3.mpr ?_
    rw [hst0, hra.1]
    simpa [FV.lt] using hf
  have htr : (relaxAfter cfg (T.env strength dB clock) start (T.initState B dt eta) (emptyTrace _) 1).trace =
      record cfg (T.env strength dB clock) start 1
        (acceptState cfg (T.env strength dB clock) 1 ((T.env strength dB clock).step cfg (T.initState B dt eta)))
        (relaxInit cfg (T.env strength dB clock) start (T.initState B dt eta) (emptyTrace _)).trace := by
    rw [relaxAfter]; exact e2
  have hk1 : ∀ k, 1 ≤ k → relaxAfter cfg (T.env strength dB clock) start (T.initState B dt eta) (emptyTrace _) k =
      relaxAfter cfg (T.env strength dB clock) start (T.initState B dt eta) (emptyTrace _) 1 := by
    intro k hk
    obtain ⟨n, rfl⟩ := Nat.exists_eq_add_of_le hk
    exact C49_stopped cfg _ start _ _ 1 n hstop
  dsimp only
  rcases Nat.eq_zero_or_pos k with rfl | hk
  · refine ⟨fun hh => absurd hh (by omega), ?_, fun _ => ?_, fun _ hh => absurd hh (by omega)⟩
    · rw [h0, hforce0]; simp
    · rw [h0, hit0]; exact ⟨rfl, rfl⟩
  · rw [hk1 k hk, htr]
    refine ⟨fun _ => hstop, hra.2.1, fun hh => ?_, fun hh _ => ?_⟩
    · rcases hh with hh | hh
      · rw [hra.2.2.1 hh]; exact ⟨rfl, rfl⟩
      · omega
    · rw [hra.2.2.2 hh]
      refine ⟨rfl, ?_⟩
      show Except.ok ((final - setupDone) / ((0 + 1 : Nat) : ℝ)) = _
      norm_num

end

/-- **C77** for any run with a fresh trace dictionary, the report between the loop and saving raises exactly if no iteration after the initial
one was recorded, that is if no due iteration had an accepted step; otherwise it is the time divided by the last recorded iteration. -/
theorem C77_report_raises_iff {V H : Type} (cfg : RelaxConfig) (env : RelaxEnv V H) (start : ℝ) (s : State V H) (final setupDone : ℝ) (k : Nat) :
    ((∃ e, averageStepTime final setupDone (relaxAfter cfg env start s (emptyTrace V) k).trace.iterations = .error e) ↔
      ∀ i, 1 ≤ i → i ≤ k → (i % cfg.saveEvery = 0 ∨ i = cfg.maxit) → ¬ Accepted cfg env start s (emptyTrace V) i) ∧
    (∀ x, averageStepTime final setupDone (relaxAfter cfg env start s (emptyTrace V) k).trace.iterations = .ok x →
      ∃ i, 1 ≤ i ∧ i ≤ k ∧ (i % cfg.saveEvery = 0 ∨ i = cfg.maxit) ∧ Accepted cfg env start s (emptyTrace V) i ∧
        (∀ j, i < j → j ≤ k → (j % cfg.saveEvery = 0 ∨ j = cfg.maxit) → ¬ Accepted cfg env start s (emptyTrace V) j) ∧
        x = (final - setupDone) / i) := by
  obtain ⟨hs, hh, hmem⟩ := C50_schedule cfg env start s (emptyTrace V) rfl k
  generalize (relaxAfter cfg env start s (emptyTrace V) k).trace.iterations = its at hs hh hmem
  have hne : its ≠ [] := by rintro rfl; simp at hh
  have hlast : its.getLast? = some (its.getLast hne) := List.getLast?_eq_some_getLast hne
  have hmax : ∀ i ∈ its, i ≤ its.getLast hne := by
    intro i hi
    obtain ⟨n, hn, rfl⟩ := List.mem_iff_getElem.mp hi
    rw [List.getLast_eq_getElem]
    rcases Nat.lt_or_ge n (its.length - 1) with hlt | hge
    · exact (List.pairwise_iff_getElem.mp hs n (its.length - 1) hn (by omega) hlt).le
    · have : n = its.length - 1 := by omega
      subst this; exact le_refl _
  have hml : its.getLast hne ∈ its := List.getLast_mem hne
  unfold averageStepTime
  rw [hlast]
  generalize its.getLast hne = m at hmax hml
  rcases m with _ | m
  · refine ⟨⟨fun _ i h1 h2 h3 h4 => ?_, fun _ => ⟨_, rfl⟩⟩, fun x hx => by cases hx⟩
    have := hmax i ((hmem i).mpr (Or.inr ⟨h1, h2, h3, h4⟩))
    omega
  · have := (hmem (m + 1)).mp hml
    rcases this with h0 | ⟨a1, a2, a3, a4⟩
    · omega
    · refine ⟨⟨fun ⟨e, he⟩ => (by cases he), fun hall => absurd a4 (hall _ a1 a2 a3)⟩, fun x hx => ?_⟩
      refine ⟨m + 1, a1, a2, a3, a4, fun j hj1 hj2 hj3 hj4 => ?_, (Except.ok.inj hx).symm⟩
      have := hmax j ((hmem j).mpr (Or.inr ⟨by omega, hj2, hj3, hj4⟩))
      omega

/-- non-vacuity: a polar Dirichlet stepper whose sequence has a harmonic start. -/
example : ∃ (T : Stepper) (w : Fin T.D.m2 → ℝ) (V : Matrix (Fin T.D.m2) (Fin T.D.m2) ℝ),
    Admissible (5, 6, 4) (3, 2, 1) 4 ("clamped", "periodic", "periodic") (fun y => y) true true T.D ∧
    Compatible (5, 6, 4) ("clamped", "periodic", "periodic") true ∧ IsPinv T.D.dd3 T.pinv ∧ (∀ H, T.lstsq H 0 = 0) ∧
    IsEigh (symmetrize (T.D.M2 * T.D.dd2)) w V := by
  obtain ⟨D, h⟩ := Admissible.example true true
  obtain ⟨X, hX⟩ := pinv_exists D.dd3
  obtain ⟨w, V, hV⟩ := exists_eigh (A := symmetrize (D.M2 * D.dd2)) (by
    rw [symmetrize_eq (C34_laplacians_semidefinite h).2.2.1.1, (C34_laplacians_semidefinite h).2.2.1.1])
  exact ⟨⟨D, X, fun _ b => b, 1, false, false⟩, w, V, h, by constructor <;> simp, hX, fun _ => rfl, hV⟩

/-- non-vacuity: the dimension is positive, so that the first eigenvector exists: there is a harmonic field. -/
example : ∃ D : DeRham, Admissible (5, 6, 4) (3, 2, 1) 4 ("clamped", "periodic", "periodic") (fun y => y) true true D ∧ 0 < D.m2 := by
  obtain ⟨D, h⟩ := Admissible.example true true
  refine ⟨D, h, Nat.pos_of_ne_zero fun e => ?_⟩
  have hb : Module.finrank ℝ (LinearMap.ker D.dd2.mulVecLin) = 1 := (C73_harmonic_dimensions h ⟨rfl, by decide, by decide⟩).2.2.1
  have := nullity D.dd2
  omega

theorem Case.exists_harm : ∃ B : Fin (Case.D true true).m2 → ℝ, (Case.D true true).weakCurl *ᵥ B = 0 ∧ (Case.D true true).norm2 B = 1 := by
  have h := Case.adm true true
  have hb : Module.finrank ℝ (LinearMap.ker (Case.D true true).dd2.mulVecLin) = 1 := (C73_harmonic_dimensions h ⟨rfl, by decide, by decide⟩).2.2.1
  have hn := nullity (Case.D true true).dd2
  have hm : 0 < (Case.D true true).m2 := by omega
  obtain ⟨w, V, hV⟩ := exists_eigh (A := symmetrize ((Case.D true true).M2 * (Case.D true true).dd2)) (by
    rw [symmetrize_eq (C34_laplacians_semidefinite h).2.2.1.1, (C34_laplacians_semidefinite h).2.2.1.1])
  have e := C77_harmonic_start h hV ⟨0, hm⟩ rfl
  exact ⟨_, e.2.1, e.2.2.2.1⟩

/-- Case of `C77_harmonic_diagnostics`: a harmonic field of norm one. -/
example := C77_harmonic_diagnostics (Case.adm true true) _ Case.exists_harm.choose_spec.1

/-- Case of `C77_projected_run`: a perturbed run on the standard case. -/
example (cfg : RelaxConfig) := C77_projected_run (Case.T_adm true 1 false false) (Case.T_pinv true 1 false false) cfg (fun x => ![x 1, -x 0, 1]) (fun x => ![0, 0, x 0]) 1 (1 / 100) (fun k => k) 0 7

/-- Case of `C77_stationary` and `C77_harmonic_run_report`: a run of 1000 iterations that starts from a harmonic field of norm one. -/
example := C77_stationary (Case.T_adm true 1 false false) (fun H => show Case.pinv H *ᵥ (0 : Fin _ → ℝ) = 0 from mulVec_zero _) ⟨1000, 1e-9, 20, 4, 1, 1e-12, false, 1, 0, 100, 1, false⟩ 0 (fun _ => 0) (fun k => k) 0
  (B := Case.exists_harm.choose) Case.exists_harm.choose_spec.1 (1 / 100) 0 (emptyTrace _) 1000 (Or.inl (le_refl _))
example := C77_harmonic_run_report (Case.T_adm true 1 false false) (fun H => show Case.pinv H *ᵥ (0 : Fin _ → ℝ) = 0 from mulVec_zero _) ⟨1000, 1e-9, 20, 4, 1, 1e-12, false, 1, 0, 100, 1, false⟩
  (by norm_num) (by norm_num) (by norm_num) (by norm_num) 0 (fun _ => 0) (fun k => k) 0
  (B := Case.exists_harm.choose) Case.exists_harm.choose_spec.1

end Mrx.Props
