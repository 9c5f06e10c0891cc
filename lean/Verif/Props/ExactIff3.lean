import Verif.Props.Splines2
import Verif.Props.Quadrature
import Verif.Props.BoundaryVec
import Verif.Props.PolarRank
import Verif.Props.Geometry
import Verif.Props.Mappings2
import Verif.Props.Grids

/-!
# Exact domains of the properties that the code satisfies only in part

For the properties C08, C15, C25, C27, C29, C64, C65, C70 the code is right for some inputs and wrong for the
others. Here the two sets of inputs are separated by theorems of the form "the property holds if and only
if ...", so that nothing is left open.
-/

set_option linter.unusedSectionVars false
set_option linter.unusedVariables false

namespace Mrx.Props

open Spec Filter Topology Matrix Real

/-! ## C08: the right end point of a clamped derivative basis -/

/-- The left limit of the derivative basis function `i`, `i + 3 ≤ n`, at `1` is `0`. -/
theorem deriv_tendsto_zero (n p : Nat) (hp : 1 ≤ p) (h : p < n) (hfine : n - p ≤ 99900)
    (s : SplineBasis ℝ) (hs : SplineBasis.mk? n p "clamped" = .ok s)
    (d : DerivativeSpline ℝ) (hd : DerivativeSpline.mk? s = .ok d) (i : Nat) (hi : i + 3 ≤ n) :
    Tendsto (fun x => d.evaluate x (i : Int)) (𝓝[<] 1) (𝓝 0) := by
  have hm := monotone_clampedKnot (K := ℝ) n p h
  have hp0 : (0 : ℝ) < p := by exact_mod_cast hp
  have hgap : 0 ≤ clampedKnot ℝ n p (i + p + 1) - clampedKnot ℝ n p (i + 1) := sub_nonneg.2 (hm (by omega))
  have hlt : clampedKnot ℝ n p (n-1) < 1 := clampedKnot_lt_one n p _ (by omega) h
  have hsq : ∀ᶠ x in 𝓝[<] (1:ℝ), 0 ≤ d.evaluate x (i : Int) ∧
      d.evaluate x (i : Int) ≤
        p * (1 - ((x - clampedKnot ℝ n p (n-1)) / (1 - clampedKnot ℝ n p (n-1))) ^ (p-1))
          / (clampedKnot ℝ n p (i + p + 1) - clampedKnot ℝ n p (i + 1)) := by
    filter_upwards [self_mem_nhdsWithin, nhdsWithin_le_nhds (eventually_gt_nhds hlt)] with x hx1 hx2
    have hx1' : x < 1 := hx1
    rw [C08_clamped_derivative_values n p hp h hfine s hs d hd x (ne_of_lt hx1), if_pos (by omega)]
    have hnn := N_nonneg hm (p-1) (i + 1) x
    refine ⟨div_nonneg (by positivity) hgap, ?_⟩
    have h0x : 0 ≤ x := by
      have : 0 ≤ clampedKnot ℝ n p (n-1) := by
        rw [← clampedKnot_zero (K := ℝ) n p 0 (by omega)]; exact hm (by omega)
      exact this.trans (le_of_lt hx2)
    have hsum := N_sum hm (p := p - 1) (m := n) (x := x)
      (by rw [clampedKnot_zero n p _ (by omega)]; exact h0x)
      (by rw [clampedKnot_one n p n le_rfl h]; exact hx1')
    have hle : N (clampedKnot ℝ n p) (p-1) (i + 1) x + N (clampedKnot ℝ n p) (p-1) (n-1) x ≤ 1 := by
      rw [← hsum, ← Finset.sum_pair (f := fun i => N (clampedKnot ℝ n p) (p - 1) i x)
        (show i + 1 ≠ n - 1 by omega)]
      apply Finset.sum_le_sum_of_subset_of_nonneg
      · intro k hk; simp only [Finset.mem_insert, Finset.mem_singleton] at hk; rw [Finset.mem_range]; omega
      · intro k _ _; exact N_nonneg hm _ _ _
    rw [N_last_power hm (p-1) (n-1) x (fun k hk => clampedKnot_one n p _ (by omega) h)
      (le_of_lt hx2) hx1'] at hle
    gcongr
    linarith
  have hc : ContinuousAt (fun x : ℝ =>
      p * (1 - ((x - clampedKnot ℝ n p (n-1)) / (1 - clampedKnot ℝ n p (n-1))) ^ (p-1))
          / (clampedKnot ℝ n p (i + p + 1) - clampedKnot ℝ n p (i + 1))) 1 := by fun_prop
  have ht := hc.tendsto.mono_left (nhdsWithin_le_nhds (s := Set.Iio 1))
  rw [div_self (by linarith : (1:ℝ) - clampedKnot ℝ n p (n-1) ≠ 0), one_pow, sub_self, mul_zero, zero_div] at ht
  exact tendsto_of_tendsto_of_tendsto_of_le_of_le' tendsto_const_nhds ht
    (hsq.mono fun _ h => h.1) (hsq.mono fun _ h => h.2)

/-- **C08** exact domain: for every clamped basis, the value of derivative basis function `i` at `x = 1` is its
left limit exactly for the indices `i < n - 3`; the last two basis functions are wrong there. -/
theorem C08_right_end_iff (n p : Nat) (hp : 1 ≤ p) (h : p < n) (hfine : n - p ≤ 99900)
    (s : SplineBasis ℝ) (hs : SplineBasis.mk? n p "clamped" = .ok s)
    (d : DerivativeSpline ℝ) (hd : DerivativeSpline.mk? s = .ok d) (i : Nat) (hi : i + 1 < n) :
    Tendsto (fun x => d.evaluate x (i : Int)) (𝓝[<] 1) (𝓝 (d.evaluate 1 (i : Int))) ↔ i + 3 < n := by
  constructor
  · intro ht
    by_contra hc
    rcases (show i + 2 = n ∨ i + 3 = n by omega) with e | e
    · obtain ⟨e0, e1, e2⟩ := C08_last_derivative_wrong_at_one n p hp h hfine s hs d hd
      rw [show (n : Int) - 2 = (i : Int) by omega] at e0 e1
      rw [e0] at ht
      exact absurd (tendsto_nhds_unique ht e1) e2.ne
    · obtain ⟨e0, e1⟩ := C08_second_last_derivative_wrong_at_one n p hp h (by omega) hfine s hs d hd
      rw [show (n : Int) - 3 = (i : Int) by omega] at e0 e1
      exact absurd (tendsto_nhds_unique ht e1) e0.ne'
  · intro hi3
    have hv : d.evaluate 1 (i : Int) = 0 := by
      have hd' := hd
      rw [of_mk?_clamped h hs, mk?_deriv_clamped n p hp h] at hd'
      rw [← Except.ok.inj hd']
      unfold DerivativeSpline.evaluate
      simp only [if_true, Nat.cast_lt]
      rw [if_pos (by omega)]
      unfold SplineBasis.evaluate
      rw [if_neg (show ¬ ("clamped" = "periodic") by decide), if_pos rfl,
        if_neg (by intro hc; have := hc.1; simp only at this; omega)]
      have e0 : ((i : Int) + 1) = ((i + 1 : Nat) : Int) := by omega
      rw [e0, evaluate'_clamped (n-1) (p-1) "clamped" n p h hfine 1 (i + 1) (by omega),
        N_clamped_at_one n p (p-1) (i + 1) h (by omega)]
      simp
    rw [hv]
    exact deriv_tendsto_zero n p hp h hfine s hs d hd i (by omega)

/-! ## C15: quadrature requests -/

/-- **C15** exact domain: for every clamped or periodic basis built by the constructor a request for `k ≥ 1` points
per element is never rejected, and the rule returned has `k` points on each of the `m` elements exactly when the
degree is at least one and `k ≤ 10`. -/
theorem C15_requested_rule_iff {K : Type*} [Field K] [LinearOrder K] [IsStrictOrderedRing K] (n p : Nat) (ty : String) (m : Nat)
    (hty : ty = "clamped" ∧ p < n ∧ m = n - p ∨ ty = "periodic" ∧ 1 ≤ n ∧ (p < n ∨ p = 1) ∧ m = n)
    (s : SplineBasis K) (hs : SplineBasis.mk? n p ty = .ok s) (k : Nat) (h1 : 1 ≤ k) :
    ∃ xs ws, Quad.selectQuadrature s k = .ok (xs, ws) ∧ (xs.length = m * k ↔ 1 ≤ p ∧ k ≤ 10) := by
  have hm : 1 ≤ m := by omega
  have hmk : 0 < m * k := Nat.mul_pos (by omega) (by omega)
  have hst : s.type = ty ∧ s.p = p := by
    rcases hty with ⟨rfl, hpn, rfl⟩ | ⟨rfl, hn, hpn, rfl⟩
    · rw [of_mk?_clamped hpn hs]; exact ⟨rfl, rfl⟩
    · rw [of_mk?_periodic hpn hs]; exact ⟨rfl, rfl⟩
  by_cases hp : p = 0
  · refine ⟨[], [], C15_degree_zero_rule_is_empty s ?_ (by rw [hst.2, hp]) k, ?_⟩
    · rw [hst.1]; rcases hty with ⟨h, -⟩ | ⟨h, -⟩ <;> simp [h]
    · constructor
      · intro h; rw [List.length_nil] at h; omega
      · rintro ⟨h, -⟩; omega
  · by_cases hk : k ≤ 10
    · obtain ⟨xs, ws, a, -, b, -⟩ := C11_select_rule n p (by omega) ty m hty s hs k h1 hk
      exact ⟨xs, ws, a, by rw [b]; exact ⟨fun _ => ⟨by omega, hk⟩, fun _ => rfl⟩⟩
    · obtain ⟨xs, ws, a, -, b, -⟩ := C11_select_rule n p (by omega) ty m hty s hs 10 (by omega) le_rfl
      have e : Quad.selectQuadrature s k = Quad.selectQuadrature s 10 := by
        unfold Quad.selectQuadrature
        rcases hty with ⟨h, -⟩ | ⟨h, -⟩ <;> rw [hst.1, h] <;>
          simp only [if_true, show ¬ ("periodic" = "clamped") by decide, if_false, C15_unsupported_order_silently_ten _ k (by omega)]
      refine ⟨xs, ws, by rw [e]; exact a, ?_⟩
      rw [b]
      constructor
      · intro h
        have := Nat.eq_of_mul_eq_mul_left (by omega) h
        omega
      · rintro ⟨-, h⟩; omega

/-- Case: 12 points requested for 8 cubic periodic splines. -/
example := C15_requested_rule_iff (K := ℝ) 8 3 "periodic" 8 (by norm_num) _ (mk?_periodic 8 3 (by norm_num)) 12 (by norm_num)

/-! ## C25: the metric tables -/

/-- **C25** exact domain: at a quadrature point `x` the stored inverse metric is the inverse of the stored metric
exactly when `|det DF(x)| ≥ 1e-5`. -/
theorem C25_inverse_metric_iff (F : V3 → V3) (xs : List V3) (j : Nat) (x : V3) (hx : xs[j]? = some x) :
    (Metric.ofMap F xs).G j * (Metric.ofMap F xs).Ginv j = 1 ↔ 1e-5 ≤ |jacobianDeterminant F x| := by
  constructor
  · intro h
    by_contra hc
    rw [C25_inverse_metric_zero_for_small_jacobian F xs j x hx (lt_of_not_ge hc), Matrix.mul_zero] at h
    exact zero_ne_one h
  · intro h
    exact (C25_inverse_metric F xs j x hx h).1

/-- Case: any map at the second of two points. -/
example (F : V3 → V3) (x y : V3) := C25_inverse_metric_iff F [x, y] 1 y rfl

/-! ## C27: vector fields -/

/-- The operator selects exactly the kept degrees of freedom, each once. -/
def SelectsKept (B : BoundaryOp) : Prop :=
  ∃ sel : Fin B.rowDims.n → Fin B.Λ.n, Function.Injective sel ∧
    (∀ r c, B.matrix r c = if c = sel r then 1 else 0) ∧
    (∀ c, (∃ r, sel r = c) ↔ Kept B.Λ B.types (B.Λ.unravelIndex c))

/-- **C27** exact domain: for vector fields (`k = -1`) with at least one row, the operator selects exactly the
degrees of freedom that the conditions keep if and only if no direction has a condition at its left face
("dirichlet" or "left"). -/
theorem C27_vector_selection_iff (B : BoundaryOp) (hk : B.Λ.k = -1) (hr : 0 < B.rowDims.nr) (ht : 0 < B.rowDims.nt)
    (hz : 0 < B.rowDims.nz) :
    SelectsKept B ↔ ¬ LeftConstrained B.types.1 ∧ ¬ LeftConstrained B.types.2.1 ∧ ¬ LeftConstrained B.types.2.2 := by
  constructor
  swap
  · rintro ⟨a, b, c⟩; exact C27_vector_selection B hk a b c
  classical
  rintro ⟨sel, -, hm, hkept⟩
  have hv : Dims.validDegree B.Λ.k := by unfold Dims.validDegree; omega
  have hv' : Dims.validDegree B.rowDims.k := hv
  have hBk : B.rowDims.k = -1 := hk
  have row : ∀ c, c < 3 → B.rowDims.InRange c 0 0 0 := by
    intro c hc
    unfold Dims.InRange
    simp only [Dims.cshape, Dims.shape, hBk]
    interval_cases c <;> simp [hr, ht, hz]
  have col : ∀ c i j l, c < 3 → i < B.Λ.nr → j < B.Λ.nt → l < B.Λ.nz → B.Λ.InRange c i j l := by
    intro c i j l hc hi hj hl
    unfold Dims.InRange
    simp only [Dims.cshape, Dims.shape, hk]
    interval_cases c <;> simp [hi, hj, hl]
  have room : ∀ n t, 0 < getDim n t → 0 < n ∧ (LeftConstrained t → 1 < n) := by
    intro n t hg
    unfold getDim at hg
    unfold LeftConstrained
    split_ifs at hg with a b c
    · exact ⟨by omega, fun _ => by omega⟩
    · exact ⟨by omega, fun h => by subst b; simp at h⟩
    · exact ⟨by omega, fun _ => by omega⟩
    · exact ⟨by omega, fun h => by rcases h with h | h <;> contradiction⟩
  obtain ⟨r0, r1⟩ := room _ _ hr
  obtain ⟨t0, t1⟩ := room _ _ ht
  obtain ⟨z0, z1⟩ := room _ _ hz
  have bad : ∀ (c i j l : Nat), B.rowDims.InRange c 0 0 0 → B.Λ.InRange c i j l →
      (∀ r q, B.rowDims.unravelIndex r = (c, 0, 0, 0) → B.Λ.unravelIndex q = (c, i, j, l) → B.element r q = 1) →
      Kept B.Λ B.types (c, i, j, l) := by
    intro c i j l hrow hcol he
    have e := he (B.rowDims.ravelIndex c 0 0 0) (B.Λ.ravelIndex c i j l) (Dims.unravelIndex_ravelIndex _ hv' hrow)
      (Dims.unravelIndex_ravelIndex _ hv hcol)
    have hmm := hm ⟨_, Dims.ravelIndex_lt _ hv' hrow⟩ ⟨_, Dims.ravelIndex_lt _ hv hcol⟩
    have e1 : B.matrix ⟨_, Dims.ravelIndex_lt _ hv' hrow⟩ ⟨_, Dims.ravelIndex_lt _ hv hcol⟩ = 1 := by
      show ((B.element _ _ : Int) : ℝ) = 1
      rw [e]; norm_num
    rw [e1] at hmm
    split_ifs at hmm with hq
    · have := (hkept _).1 ⟨_, hq.symm⟩
      simpa only [Dims.unravelIndex_ravelIndex _ hv hcol] using this
    · norm_num at hmm
  have el : ∀ r q c i j l, B.rowDims.unravelIndex r = (c, 0, 0, 0) → B.Λ.unravelIndex q = (c, i, j, l) →
      B.element r q = if c = 0 then (if (0 : Int) = BoundaryOp.target B.types.1 i ∧ (0 : Int) = j ∧ (0 : Int) = l then 1 else 0)
        else if c = 1 then (if (0 : Int) = i ∧ (0 : Int) = BoundaryOp.target B.types.2.1 j ∧ (0 : Int) = l then 1 else 0)
        else (if (0 : Int) = i ∧ (0 : Int) = j ∧ (0 : Int) = BoundaryOp.target B.types.2.2 l then 1 else 0) := by
    intro r q c i j l er eq
    unfold BoundaryOp.element
    simp only [hk, er, eq, show ¬ ((-1:Int) = 0) by decide, show ¬ ((-1:Int) = 1) by decide, if_false, or_true, if_true]
    norm_num
  have tgt : ∀ t, BoundaryOp.target t (if LeftConstrained t then 1 else 0) = 0 := by
    intro t
    unfold BoundaryOp.target LeftConstrained
    by_cases hh : t = "dirichlet" ∨ t = "left"
    · simp [hh]
    · simp [hh]
  have ite_lt : ∀ (P : Prop) [Decidable P] (n : Nat), 0 < n → (P → 1 < n) → (if P then 1 else 0) < n := by
    intro P _ n h0 h1; split_ifs with hP <;> [exact h1 hP; exact h0]
  refine ⟨fun hL => ?_, fun hL => ?_, fun hL => ?_⟩
  · have K := bad 1 0 (if LeftConstrained B.types.2.1 then 1 else 0) 0 (row 1 (by omega))
      (col _ _ _ _ (by omega) r0 (ite_lt _ _ t0 t1) z0) (by
        intro r q er eq
        rw [el r q _ _ _ _ er eq]
        simp [tgt])
    have := K.1
    simp [isDeriv, hk, Keeps1, hL] at this
  · have K := bad 0 (if LeftConstrained B.types.1 then 1 else 0) 0 0 (row 0 (by omega))
      (col _ _ _ _ (by omega) (ite_lt _ _ r0 r1) t0 z0) (by
        intro r q er eq
        rw [el r q _ _ _ _ er eq]
        simp [tgt])
    have := K.2.1
    simp [isDeriv, hk, Keeps1, hL] at this
  · have K := bad 0 (if LeftConstrained B.types.1 then 1 else 0) 0 0 (row 0 (by omega))
      (col _ _ _ _ (by omega) (ite_lt _ _ r0 r1) t0 z0) (by
        intro r q er eq
        rw [el r q _ _ _ _ er eq]
        simp [tgt])
    have := K.2.2
    simp [isDeriv, hk, Keeps1, hL] at this

/-! ## C29: polar operators -/

/-- **C29** exact domain: for every form built by the constructor (clamped radial, periodic poloidal, any axial
type; `nr ≥ 4`, `nt ≥ 3`) the rows of the polar operator are linearly independent, i.e. address as many degrees of
freedom as there are rows, if and only if `k ∈ {0, 1, -1}` or the axial basis is not clamped. -/
theorem C29_rows_independent_iff (k : Int) (ns ps : Nat × Nat × Nat) (tz : String) (f : Form ℝ)
    (hmk : Form.mk? k ns ps ("clamped", "periodic", tz) = .ok f) (hnr : 4 ≤ ns.1) (hnt : 3 ≤ ns.2.1) (hnz : 2 ≤ ns.2.2)
    (dirichlet : Bool) :
    LinearIndependent ℝ (PolarOp.mk f.dims (getXi ns.2.1) dirichlet).matrix.row ↔
      (k = 0 ∨ k = 1 ∨ k = -1 ∨ tz ≠ "clamped") := by
  constructor
  swap
  · intro h
    exact C29_rows_independent k ns ps tz f ⟨hmk, by omega, h⟩ hnt dirichlet
  intro hli
  by_contra hc
  push Not at hc
  obtain ⟨k0, k1, km, tzc⟩ := hc
  obtain ⟨hk, hd, -⟩ := Form.mk?_inv hmk
  subst tzc
  have hd2 : f.dims = ⟨k, ns.1, ns.2.1, ns.2.2, ns.1 - 1, ns.2.1, ns.2.2 - 1⟩ := by rw [hd]; simp [Form.dsize]
  rw [hd2] at hli
  have : k = 2 ∨ k = 3 := by unfold Dims.validDegree at hk; omega
  rcases this with rfl | rfl
  · obtain ⟨r, r', hne, he⟩ := C29_twoform_clamped_duplicate_rows ns.1 ns.2.1 ns.2.2 hnr (by omega) hnz (getXi ns.2.1) dirichlet
    exact hne (hli.injective (funext he))
  · obtain ⟨r, he⟩ := C29_threeform_clamped_zero_row ns.1 ns.2.1 ns.2.2 (by omega) (by omega) hnz (getXi ns.2.1) dirichlet
    exact hli.ne_zero r (funext he)

/-! ## C64, C70: GVEC data -/

/-- **C64** exact domain: a grid point `(X1, ζ, X2)` keeps its Cartesian position exactly when it lies on the axis
of rotation or its angle is a multiple of `4π` (in particular, of the grid points `0 ≤ ζ < 2π / nfp` off the axis,
exactly those with `ζ = 0`). -/
theorem C64_grid_point_iff {nfp ρ θ ζ X1 X2 : ℝ} (hn : nfp ≠ 0) (X1h X2h : V3 → Fin 1 → ℝ)
    (h1 : X1h (gvecPoint nfp ρ θ ζ) 0 = X1) (h2 : X2h (gvecPoint nfp ρ θ ζ) 0 = X2) :
    gvecStellaratorMap X1h X2h nfp (gvecPoint nfp ρ θ ζ) = cylindrical X1 ζ X2 ↔
      X1 = 0 ∨ ∃ m : ℤ, ζ = 4 * π * m := by
  rw [C64_grid_point hn X1h X2h h1 h2]
  constructor
  · intro h
    by_cases hX : X1 = 0
    · exact Or.inl hX
    right
    have e0 := congrFun h 0
    have e1 := congrFun h 1
    simp only [cylindrical, cons_val_zero, cons_val_one] at e0 e1
    have c : cos (ζ / 2) = cos ζ := mul_left_cancel₀ hX e0
    have s : sin (ζ / 2) = sin ζ := mul_left_cancel₀ (neg_ne_zero.2 hX) e1
    have one : cos (ζ / 2) = 1 := by
      have := cos_sub ζ (ζ / 2)
      rw [show ζ - ζ / 2 = ζ / 2 by ring, c, s] at this
      rw [c, this]
      have := sin_sq_add_cos_sq ζ
      nlinarith
    obtain ⟨m, hm⟩ := (cos_eq_one_iff _).1 one
    exact ⟨m, by linarith⟩
  · rintro (rfl | ⟨m, rfl⟩)
    · simp [cylindrical]
    · have a1 : 4 * π * (m : ℝ) / 2 = (m : ℝ) * (2 * π) := by ring
      have a2 : 4 * π * (m : ℝ) = ((2 * m : ℤ) : ℝ) * (2 * π) := by push_cast; ring
      rw [a1, a2]
      simp only [cylindrical]
      have z1 := cos_int_mul_two_pi m
      have z2 := cos_int_mul_two_pi (2 * m)
      have s1 : sin ((m : ℝ) * (2 * π)) = 0 := by
        rw [show (m : ℝ) * (2 * π) = ((2 * m : ℤ) : ℝ) * π by push_cast; ring]; exact sin_int_mul_pi _
      have s2 : sin (((2 * m : ℤ) : ℝ) * (2 * π)) = 0 := by
        rw [show ((2 * m : ℤ) : ℝ) * (2 * π) = ((2 * (2 * m) : ℤ) : ℝ) * π by push_cast; ring]; exact sin_int_mul_pi _
      rw [z1, z2, s1, s2]

/-- Case: 5 field periods, `X¹ = 3`, `X² = 1`, `ζ = π`: the map misses the point. -/
example (ρ θ : ℝ) := C64_grid_point_iff (nfp := 5) (ρ := ρ) (θ := θ) (ζ := π) (by norm_num) (fun _ _ => 3) (fun _ _ => 1) rfl rfl

/-- **C70** exact domain: the points kept are the documented ones, `tol < ρ < 1 − tol`, exactly for the tolerance
`1e-3`. -/
theorem C70_valid_points_iff {tol : ℝ} (h0 : 0 ≤ tol) (h1 : tol < 1 / 2) :
    (∀ pt : V3, gvecValid tol pt = true ↔ (tol < pt 0 ∧ pt 0 < 1 - tol)) ↔ tol = 1e-3 := by
  constructor
  · intro h
    by_contra hne
    obtain ⟨pt, hpt⟩ := C70_wrong_points h0 h1 hne
    exact hpt (h pt)
  · rintro rfl pt
    exact C70_valid_points pt

/-- Case: tolerance 1/100. -/
example := C70_valid_points_iff (tol := 1 / 100) (by norm_num) (by norm_num)

/-! ## C65: plot grids -/

/-- The grid values of a two-dimensional cut are pairwise different. -/
theorem x1_injective (a : Grid2Args) (hX : a.xMin + a.tol1 ≠ a.xMax - a.tol1) {i j : Nat} (hi : i < a.x1.length)
    (hj : j < a.x1.length) (h : a.x1[i] = a.x1[j]) : i = j := by
  have hi' := hi
  have hj' := hj
  rw [Grid2Args.x1_length] at hi' hj'
  cases hr : a.invertX with
  | true =>
    have e : a.x1 = (linspace (a.xMin + a.tol1) (a.xMax - a.tol1) a.nx).reverse := by simp [Grid2Args.x1, hr]
    simp only [e, List.getElem_reverse, linspace_length] at h
    have := linspace_injective hX (by omega) (by omega) h
    omega
  | false =>
    have e : a.x1 = linspace (a.xMin + a.tol1) (a.xMax - a.tol1) a.nx := by simp [Grid2Args.x1, hr]
    simp only [e] at h
    exact linspace_injective hX (by omega) (by omega) h

/-- **C65** exact domain, cut at a fixed third coordinate: for an injective map and non-degenerate ranges, entry
`(i, j)` of the reshaped array is the image of grid point `(i, j)` for all `i`, `j` exactly when one of the two
directions has a single point. -/
theorem C65_cut2_aligned_iff (F : V3 → V3) (hF : Function.Injective F) (v : ℝ) (ax : Int) (h0 : ax ≠ 0) (h1 : ax ≠ 1)
    (a : Grid2Args) (hx : 1 ≤ a.nx) (hy : 1 ≤ a.ny) (hX : a.xMin + a.tol1 ≠ a.xMax - a.tol1)
    (hY : a.yMin + a.tol2 ≠ a.yMax - a.tol2) :
    (∀ i j (hi : i < a.x1.length) (hj : j < a.x2.length), (get2dGrids F v ax a).Y i j 0 = some (F ![a.x1[i], a.x2[j], v]))
      ↔ a.nx = 1 ∨ a.ny = 1 := by
  constructor
  · intro h
    by_contra hc
    push Not at hc
    have := (C65_cut2_misaligned F hF v ax h0 h1 a (by omega) (by omega) hX hY).1
    exact this (h 0 1 (by rw [Grid2Args.x1_length]; omega) (by rw [Grid2Args.x2_length]; omega))
  · intro h i j hi hj
    have hi' := hi
    have hj' := hj
    rw [Grid2Args.x1_length] at hi'
    rw [Grid2Args.x2_length] at hj'
    obtain ⟨q1, q2, e⟩ := C65_cut2_entries F v ax h0 h1 a i j hi' hj'
    rw [e]
    have e12 : (i * a.ny + j) % a.nx = i ∧ (i * a.ny + j) / a.nx = j := by
      rcases h with h | h
      · have : i = 0 := by omega
        subst this
        rw [h]; simp [Nat.mod_one]
      · have : j = 0 := by omega
        subst this
        rw [h]; simp [Nat.mod_eq_of_lt hi', Nat.div_eq_of_lt hi']
    simp only [e12.1, e12.2]

/-- Case: the identity map, a 3 × 2 grid on the cut `z = 1/2`. -/
example := C65_cut2_aligned_iff (fun x => x) (fun _ _ h => h) (1 / 2) 2 (by norm_num) (by norm_num) { nx := 3, ny := 2 }
  (by norm_num) (by norm_num) (by norm_num) (by norm_num)

/-- **C65** the transposed reading, which the plotting functions use: entry `(i, j)` is the image of grid point
`(j, i)` for all `i`, `j` exactly when `nx = ny`. -/
theorem C65_cut2_transposed_iff (F : V3 → V3) (hF : Function.Injective F) (v : ℝ) (ax : Int) (h0 : ax ≠ 0) (h1 : ax ≠ 1)
    (a : Grid2Args) (hx : 2 ≤ a.nx) (hy : 2 ≤ a.ny) (hX : a.xMin + a.tol1 ≠ a.xMax - a.tol1)
    (hY : a.yMin + a.tol2 ≠ a.yMax - a.tol2) :
    (∀ i j (hi : i < a.x2.length) (hj : j < a.x1.length), (get2dGrids F v ax a).Y i j 0 = some (F ![a.x1[j], a.x2[i], v]))
      ↔ a.nx = a.ny := by
  constructor
  · intro h
    by_contra hc
    exact (C65_cut2_misaligned F hF v ax h0 h1 a hx hy hX hY).2 hc
      (h 1 0 (by rw [Grid2Args.x2_length]; omega) (by rw [Grid2Args.x1_length]; omega))
  · intro h i j hi hj
    exact C65_cut2_square F v ax h0 h1 a h i j hi hj

/-- Case: the same grid. -/
example := C65_cut2_transposed_iff (fun x => x) (fun _ _ h => h) (1 / 2) 2 (by norm_num) (by norm_num) { nx := 3, ny := 2 }
  (by norm_num) (by norm_num) (by norm_num) (by norm_num)

/-- **C65** exact domain in three dimensions (transposed reading). -/
theorem C65_3d_transposed_iff (F : V3 → V3) (hF : Function.Injective F) {x0 x1 y0 y1 : ℝ} (z0 z1 : ℝ) (hX : x0 ≠ x1)
    (hY : y0 ≠ y1) (nx ny nz : Nat) (hx : 2 ≤ nx) (hy : 2 ≤ ny) (hz : 1 ≤ nz) :
    (∀ i j k (hi : i < ny) (hj : j < nx) (hk : k < nz), (get3dGrids F x0 x1 y0 y1 z0 z1 nx ny nz).Y i j k
      = some (F ![(linspace x0 x1 nx)[j]'(by rwa [linspace_length]), (linspace y0 y1 ny)[i]'(by rwa [linspace_length]),
          (linspace z0 z1 nz)[k]'(by rwa [linspace_length])])) ↔ nx = ny := by
  constructor
  · intro h
    by_contra hc
    exact (C65_3d_misaligned F hF z0 z1 hX hY nx ny nz hx hy hz).2 hc (h 1 0 0 (by omega) (by omega) (by omega))
  · rintro rfl i j k hi hj hk
    exact C65_3d_square F x0 x1 y0 y1 z0 z1 nx nz i j k hi hj hk

/-! ## Non-vacuity -/

/-- a concrete clamped basis (`n = 6`, `p = 2`): the hypotheses of `C08_right_end_iff` hold, functions 0-2 are right
at the end point and functions 3, 4 wrong. -/
example : ∃ (s : SplineBasis ℝ) (d : DerivativeSpline ℝ), SplineBasis.mk? 6 2 "clamped" = .ok s ∧ DerivativeSpline.mk? s = .ok d ∧
    Tendsto (fun x => d.evaluate x (2 : Nat)) (𝓝[<] 1) (𝓝 (d.evaluate 1 (2 : Nat))) ∧
    ¬ Tendsto (fun x => d.evaluate x (3 : Nat)) (𝓝[<] 1) (𝓝 (d.evaluate 1 (3 : Nat))) :=
  ⟨_, _, mk?_clamped 6 2 (by omega), mk?_deriv_clamped 6 2 (by omega) (by omega),
    (C08_right_end_iff 6 2 (by omega) (by omega) (by omega) _ (mk?_clamped 6 2 (by omega)) _
      (mk?_deriv_clamped 6 2 (by omega) (by omega)) 2 (by omega)).2 (by omega),
    fun h => absurd ((C08_right_end_iff 6 2 (by omega) (by omega) (by omega) _ (mk?_clamped 6 2 (by omega)) _
      (mk?_deriv_clamped 6 2 (by omega) (by omega)) 3 (by omega)).1 h) (by omega)⟩

/-- an operator that selects the kept degrees of freedom and one that does not. -/
example : SelectsKept ⟨⟨-1, 4, 3, 2, 3, 3, 2⟩, ("right", "none", "none")⟩ ∧
    ¬ SelectsKept ⟨⟨-1, 4, 3, 2, 3, 3, 2⟩, ("left", "none", "none")⟩ := by
  constructor
  · rw [C27_vector_selection_iff _ rfl (by decide) (by decide) (by decide)]
    simp [LeftConstrained]
  · rw [C27_vector_selection_iff _ rfl (by decide) (by decide) (by decide)]
    simp [LeftConstrained]

/-- a form with a clamped axial basis meets the hypotheses of `C29_rows_independent_iff` (right side false). -/
example : ∃ f : Form ℝ, Form.mk? 3 (4, 4, 3) (2, 2, 1) ("clamped", "periodic", "clamped") = .ok f ∧
    ¬ LinearIndependent ℝ (PolarOp.mk f.dims (getXi 4) false).matrix.row := by
  have h : ∃ f : Form ℝ, Form.mk? 3 (4, 4, 3) (2, 2, 1) ("clamped", "periodic", "clamped") = .ok f := by
    unfold Form.mk?
    simp [mk?_clamped 4 2 (Or.inl (by omega)), mk?_periodic 4 2 (Or.inl (by omega)), mk?_clamped 3 1 (Or.inl (by omega)),
      mk?_deriv_clamped 4 2 (by omega) (by omega), mk?_deriv_clamped 3 1 (by omega) (by omega),
      mk?_deriv_periodic 4 2 (by omega) (by omega) (by omega), Dims.validDegree]
  obtain ⟨f, hf⟩ := h
  refine ⟨f, hf, ?_⟩
  rw [C29_rows_independent_iff 3 (4, 4, 3) (2, 2, 1) "clamped" f hf (by decide) (by decide) (by decide) false]
  simp

end Mrx.Props
