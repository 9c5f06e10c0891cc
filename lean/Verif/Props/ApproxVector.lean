import Verif.Props.ApproxForms

/-!
# C100, continued: forms of degree 1, 2 and 3 on sequences without a polar axis
-/

set_option linter.unusedSectionVars false
set_option linter.unusedVariables false

namespace Mrx.Props
open Finset Mrx.Spec Mrx Matrix DeRham Quad

/-- Values of the splines of a direction or of their derivative splines. -/
noncomputable def dirVal (dv : Bool) (s : SplineBasis ℝ) (d : DerivativeSpline ℝ) (x : ℝ) (i : Nat) : ℝ :=
  if dv then d.evaluate x i else s.evaluate x i

/-- Number of splines of a direction, or of derivative splines. -/
def dirSize (dv : Bool) (n : Nat) (ty : String) : Nat := if dv then Form.dsize n ty else n

/-- In one direction: a point and a factor for each (derivative) spline; the scaled functions are a local partition of unity on `[0,1)`. -/
theorem dir_data {n p q : Nat} {ty : String} (h : DirOK n p q ty) {s : SplineBasis ℝ} (hs : SplineBasis.mk? n p ty = .ok s)
    {d : DerivativeSpline ℝ} (hd : DerivativeSpline.mk? s = .ok d) (dv : Bool) :
    ∃ ξ lam : Nat → ℝ, (∀ i, 0 ≤ ξ i ∧ ξ i ≤ 1) ∧ (dv = false → ty = "clamped" → ξ 0 = 0 ∧ ξ (n - 1) = 1) ∧
      ∀ x, 0 ≤ x → x < 1 → (∀ i < dirSize dv n ty, 0 ≤ lam i * dirVal dv s d x i) ∧ ∑ i ∈ range (dirSize dv n ty), lam i * dirVal dv s d x i = 1 ∧
        ∀ i < dirSize dv n ty, lam i * dirVal dv s d x i ≠ 0 → NearDir ty (reach n p ty) x (ξ i) := by
  cases dv with
  | false =>
    obtain ⟨ξ, a, b, c⟩ := dir_reps h hs
    have U := DirOK.unity h
    refine ⟨ξ, fun _ => 1, a, fun _ => b, fun x h0 h1 => ?_⟩
    simp only [dirVal, dirSize, Bool.false_eq_true, if_false, one_mul]
    exact ⟨fun i hi => U.nonneg hs x h0 h1.le i hi, U.sum hs x h0 h1.le, fun i hi hx => c i hi x h0 h1.le hx⟩
  | true =>
    simp only [dirVal, dirSize, if_true]
    rcases h with ⟨rfl, hp, hn, hfine, _⟩ | ⟨rfl, hp, b, c, hfine, _⟩ | ⟨rfl, rfl, _⟩
    · have hp0 : (0 : ℝ) < p := by exact_mod_cast hp
      have hn0 : (0 : ℝ) < (n : ℝ) - p := by have : (p : ℝ) < n := by exact_mod_cast hn
                                             linarith
      have hm := monotone_clampedKnot (K := ℝ) n p hn
      have val : ∀ x, x < 1 → ∀ i < n - 1, (clampedKnot ℝ n p (i + p + 1) - clampedKnot ℝ n p (i + 1)) / p * d.evaluate x (i : Int)
          = N (clampedKnot ℝ (n - 1) (p - 1)) (p - 1) i x := by
        intro x hx i hi
        rw [C08_clamped_derivative_values n p hp hn hfine s hs d hd x hx.ne i, if_pos hi]
        have : N (clampedKnot ℝ n p) (p - 1) (i + 1) x = N (clampedKnot ℝ (n - 1) (p - 1)) (p - 1) i x :=
          N_congr fun k _ => by rw [show i + 1 + k = i + k + 1 by omega, clampedKnot_shift n p _ hp hn]
        rw [this]
        have := (clamped_gap_pos n p i hp hn hi).ne'
        field_simp
      have hm' := monotone_clampedKnot (K := ℝ) (n - 1) (p - 1) (by omega)
      have hsz : Form.dsize n "clamped" = n - 1 := rfl
      have k0 : ∀ k, 0 ≤ clampedKnot ℝ n p k := fun k => by
        have := hm (Nat.zero_le k)
        rwa [clampedKnot_zero n p 0 (Nat.zero_le _)] at this
      refine ⟨fun i => (clampedKnot ℝ n p (i + 1) + clampedKnot ℝ n p (i + 1 + p)) / 2,
        fun i => (clampedKnot ℝ n p (i + p + 1) - clampedKnot ℝ n p (i + 1)) / p, fun i => ?_, fun hc => absurd hc (by decide), fun x h0 h1 => ⟨?_, ?_, ?_⟩⟩
      · have a := k0 (i + 1)
        have b := k0 (i + 1 + p)
        have c := clampedKnot_le_one (K := ℝ) n p (i + 1) hn
        have e := clampedKnot_le_one (K := ℝ) n p (i + 1 + p) hn
        constructor <;> linarith
      · intro i hi
        beta_reduce
        rw [val x h1 i (by rwa [hsz] at hi)]
        exact N_nonneg hm' _ _ _
      · rw [hsz, sum_congr rfl fun i hi => val x h1 i (mem_range.mp hi)]
        refine N_sum hm' ?_ ?_
        · rw [clampedKnot_zero _ _ _ le_rfl]; exact h0
        · rw [clampedKnot_one _ _ _ le_rfl (by omega)]; exact h1
      · intro i hi hx
        rw [hsz] at hi
        beta_reduce at hx
        rw [val x h1 i hi] at hx
        have e1 : clampedKnot ℝ n p (i + 1) = clampedKnot ℝ (n - 1) (p - 1) i := clampedKnot_shift n p i hp hn
        have e2 : clampedKnot ℝ n p (i + 1 + p) = clampedKnot ℝ (n - 1) (p - 1) (i + (p - 1) + 1) := by
          rw [← clampedKnot_shift n p _ hp hn]
          congr 1
          omega
        have l1 : clampedKnot ℝ n p (i + 1) ≤ x := by
          by_contra hc
          rw [e1] at hc
          exact hx (N_eq_zero_of_lt hm' (not_le.mp hc))
        have l2 : x ≤ clampedKnot ℝ n p (i + 1 + p) := by
          by_contra hc
          rw [e2] at hc
          exact hx (N_eq_zero_of_ge hm' (not_le.mp hc).le)
        have l3 := clampedKnot_step n p (i + 1) p hn
        refine Or.inr ⟨by decide, ?_⟩
        unfold reach
        rw [if_pos rfl]
        have l4 : (p : ℝ) / ((n : ℝ) - p) / 2 ≤ ((p : ℝ) + 1) / (2 * ((n : ℝ) - p)) := by
          rw [div_div, mul_comm]
          exact div_le_div_of_nonneg_right (by linarith) (by positivity)
        rw [abs_le]
        constructor <;> linarith
    · have hn0 : (0 : ℝ) < n := by exact_mod_cast c
      have hn' := hn0.ne'
      have hm := (strictMono_periodicKnot (K := ℝ) n (p - 1) c).monotone
      have hsz : Form.dsize n "periodic" = n := rfl
      have val : ∀ x, ∀ i < n, (1 / (n : ℝ)) * d.evaluate x (i : Int)
          = if i < p - 1 then N (periodicKnot ℝ n (p - 1)) (p - 1) i x + N (periodicKnot ℝ n (p - 1)) (p - 1) (n + i) x
            else N (periodicKnot ℝ n (p - 1)) (p - 1) i x := by
        intro x i hi
        rw [deriv_periodic_eq n p hp c b hfine s hs d hd x i hi, eval_periodic n (p - 1) (by omega) c hfine x i hi]
        field_simp
      refine ⟨pcentre n (p - 1), fun _ => 1 / n, fun i => ⟨Int.fract_nonneg _, (Int.fract_lt_one _).le⟩, fun hc => absurd hc (by decide),
        fun x h0 h1 => ⟨?_, ?_, ?_⟩⟩
      · intro i hi
        beta_reduce
        rw [val x i hi]
        split_ifs
        · exact add_nonneg (N_nonneg hm _ _ _) (N_nonneg hm _ _ _)
        · exact N_nonneg hm _ _ _
      · rw [hsz, sum_congr rfl fun i hi => val x i (mem_range.mp hi), sum_wrap n (p - 1) (by omega) fun i => N (periodicKnot ℝ n (p - 1)) (p - 1) i x]
        refine N_sum hm (by rwa [periodicKnot_p]) ?_
        rw [periodicKnot_add n (p - 1) (p - 1) c, periodicKnot_p]
        linarith
      · intro i hi hx
        rw [hsz] at hi
        beta_reduce at hx
        rw [val x i hi] at hx
        refine Or.inl ⟨rfl, ?_⟩
        unfold reach
        rw [if_neg (by decide), if_pos rfl]
        have cases : N (periodicKnot ℝ n (p - 1)) (p - 1) i x ≠ 0 ∨ N (periodicKnot ℝ n (p - 1)) (p - 1) (n + i) x ≠ 0 := by
          by_contra hc
          push Not at hc
          refine hx ?_
          rw [hc.1, hc.2]
          simp
        have hle : (((p - 1 : Nat) : ℝ) + 1) / (2 * n) ≤ ((p : ℝ) + 1) / (2 * n) := by
          refine div_le_div_of_nonneg_right ?_ (by positivity)
          rw [Nat.cast_sub hp, Nat.cast_one]
          linarith
        obtain ⟨k, hk⟩ := pcentre_near' n (p - 1) c x i cases
        exact ⟨k, hk.trans hle⟩
    · have ht : d.type = "constant" := by
        have h1 := (Form.spline_mk?_ok hs).2.2
        unfold DerivativeSpline.mk? at hd
        simp only at hd
        rw [if_neg (by rw [h1]; simp)] at hd
        split at hd
        · cases hd
        · cases hd; exact h1
      have val : ∀ x (i : Nat), d.evaluate x (i : Int) = 1 := by
        intro x i
        unfold DerivativeSpline.evaluate
        rw [ht, if_neg (by decide), if_neg (by decide)]
      refine ⟨fun _ => 0, fun _ => 1, fun _ => ⟨le_rfl, zero_le_one⟩, fun hc => absurd hc (by decide), fun x h0 h1 => ⟨?_, ?_, ?_⟩⟩
      · intro i _
        rw [val]; norm_num
      · rw [show Form.dsize 1 "constant" = 1 from rfl]
        simp [val]
      · intro i _ _
        refine Or.inr ⟨by decide, ?_⟩
        unfold reach
        rw [if_neg (by decide), if_neg (by decide), sub_zero, abs_of_nonneg h0]
        exact h1.le

/-- **C100** Logical components of forms of any degree on a sequence without polar axis: if each component of
`g` varies by at most `ε` within the resolution (and, with the Dirichlet condition, the components that are
not differentiated radially vanish on the two radial ends) then the components of some discrete form are
within `ε` of `g` on `[0,1)³`. -/
theorem C100_components {ns ps : Nat × Nat × Nat} {q : Nat} {types : String × String × String} (k : Int) (hk : k = 0 ∨ k = 1 ∨ k = 2 ∨ k = 3)
    (f : Form ℝ) (hf : Form.mk? k ns ps types = .ok f) (hr : DirOK ns.1 ps.1 q types.1) (ht : DirOK ns.2.1 ps.2.1 q types.2.1)
    (hz : DirOK ns.2.2 ps.2.2 q types.2.2) (dirichlet : Bool) (g : Nat → ℝ × ℝ × ℝ → ℝ) (ε : ℝ)
    (hg : ∀ c < f.dims.shape.length, ∀ x y, InCube x → InCube y → Near3 ns ps types x y → |g c x - g c y| ≤ ε)
    (hbc : dirichlet = true → types.1 = "clamped" ∧ ∀ c, isDeriv k c 0 = false → ∀ x, InCube x → x.1 = 0 ∨ x.1 = 1 → g c x = 0) :
    ∃ u : Fin (BoundaryOp.mk f.dims (bcTypes dirichlet)).rowDims.n → ℝ, ∀ c < f.dims.shape.length, ∀ x, InOpenCube x →
      |g c x - discreteFunction f u (BoundaryOp.mk f.dims (bcTypes dirichlet)).matrix x c| ≤ ε := by
  obtain ⟨hkv, hd, s0, s1, s2, d0, d1, d2⟩ := Form.mk?_inv hf
  have hdk : f.dims.k = k := by rw [hd]
  have hkv' : Dims.validDegree f.dims.k := by rw [hdk]; exact hkv
  have e0 := fun c => dir_data hr s0 d0 (isDeriv k c 0)
  have e1 := fun c => dir_data ht s1 d1 (isDeriv k c 1)
  have e2 := fun c => dir_data hz s2 d2 (isDeriv k c 2)
  choose ξ α ξm ξe ξn using e0
  choose η β ηm _ ηn using e1
  choose ζ γ ζm _ ζn using e2
  have csh : ∀ c < f.dims.shape.length, f.dims.cshape c
      = (dirSize (isDeriv k c 0) ns.1 types.1, dirSize (isDeriv k c 1) ns.2.1 types.2.1, dirSize (isDeriv k c 2) ns.2.2 types.2.2) := by
    intro c hc
    unfold Dims.cshape Dims.shape at *
    rw [hdk] at hc ⊢
    rcases hk with rfl | rfl | rfl | rfl
    · have : c = 0 := by simpa using hc
      subst this; rw [hd]; simp [dirSize, isDeriv]
    · have : c < 3 := by simpa using hc
      interval_cases c <;> rw [hd] <;> simp [dirSize, isDeriv]
    · have : c < 3 := by simpa using hc
      interval_cases c <;> rw [hd] <;> simp [dirSize, isDeriv]
    · have : c = 0 := by simpa using hc
      subst this; rw [hd]; simp [dirSize, isDeriv]
  obtain ⟨C, hC⟩ : ∃ C : Nat → Nat → Nat → Nat → ℝ, C = fun c i j l => g c (ξ c i, η c j, ζ c l) * (α c i * β c j * γ c l) := ⟨_, rfl⟩
  have cube : ∀ c i j l, InCube (ξ c i, η c j, ζ c l) := fun c i j l => ⟨ξm c i, ηm c j, ζm c l⟩
  obtain ⟨v, hv⟩ : ∃ v : Fin f.dims.n → ℝ, v = fun a : Fin f.dims.n => C (f.dims.unravelIndex a).1 (f.dims.unravelIndex a).2.1
    (f.dims.unravelIndex a).2.2.1 (f.dims.unravelIndex a).2.2.2 := ⟨_, rfl⟩
  have cv : ∀ c i j l, f.dims.InRange c i j l → coef f.dims v c i j l = C c i j l := by
    intro c i j l hin
    rw [hv]
    unfold coef
    rw [dif_pos (Dims.ravelIndex_lt _ hkv' hin)]
    simp only [Dims.unravelIndex_ravelIndex _ hkv' hin]
  have hE : (BoundaryOp.mk f.dims (bcTypes dirichlet)).matrixᵀ *ᵥ ((BoundaryOp.mk f.dims (bcTypes dirichlet)).matrix *ᵥ v) = v := by
    funext a
    obtain ⟨c1, c2⟩ := C26_projection (BoundaryOp.mk f.dims (bcTypes dirichlet)) (by
      show f.dims.k = 0 ∨ f.dims.k = 1 ∨ f.dims.k = 2 ∨ f.dims.k = 3
      rw [hdk]; exact hk) v a
    by_cases hc : Kept f.dims (bcTypes dirichlet) (f.dims.unravelIndex a)
    · exact c1 hc
    · refine (c2 hc).trans ?_
      have hva : v a = C (f.dims.unravelIndex a).1 (f.dims.unravelIndex a).2.1 (f.dims.unravelIndex a).2.2.1 (f.dims.unravelIndex a).2.2.2 := by rw [hv]
      rw [hva]
      obtain ⟨w, hw⟩ : ∃ w, w = f.dims.unravelIndex a := ⟨_, rfl⟩
      rw [← hw] at hc ⊢
      rcases Bool.eq_false_or_eq_true dirichlet with hdir | hdir
      · obtain ⟨tc, hzero⟩ := hbc hdir
        have other : ∀ n i, Keeps1 (bcTypes dirichlet).2.1 n i ∧ Keeps1 (bcTypes dirichlet).2.2 n i := by
          intro n i
          unfold Keeps1 LeftConstrained RightConstrained bcTypes
          rw [hdir]; simp
        have hnr : f.dims.nr = ns.1 := by rw [hd]
        have h0 : ¬ (isDeriv f.dims.k w.1 0 = true ∨ Keeps1 (bcTypes dirichlet).1 f.dims.nr w.2.1) := fun hh =>
          hc ⟨hh, Or.inr (other _ _).1, Or.inr (other _ _).2⟩
        push Not at h0
        obtain ⟨h1, h2⟩ := h0
        rw [hdk] at h1
        have h1' : isDeriv k w.1 0 = false := by simpa using h1
        have hend : w.2.1 = 0 ∨ w.2.1 = ns.1 - 1 := by
          by_contra hn
          push Not at hn
          refine h2 ⟨fun _ => hn.1, fun _ e => hn.2 ?_⟩
          rw [hnr] at e
          omega
        have hval : g w.1 (ξ w.1 w.2.1, η w.1 w.2.2.1, ζ w.1 w.2.2.2) = 0 := by
          refine hzero w.1 h1' _ (cube _ _ _ _) ?_
          rcases hend with e | e
          · exact Or.inl (by rw [e]; exact (ξe w.1 h1' tc).1)
          · exact Or.inr (by rw [e]; exact (ξe w.1 h1' tc).2)
        rw [hC]
        beta_reduce
        rw [hval, zero_mul]
      · exfalso
        refine hc ?_
        unfold Kept Keeps1 LeftConstrained RightConstrained bcTypes
        rw [hdir]
        simp
  refine ⟨(BoundaryOp.mk f.dims (bcTypes dirichlet)).matrix *ᵥ v, fun c hc x hx => ?_⟩
  rw [discreteFunction_eq_sum f (Form.mk?_wf hf) _ _ x c hc]
  have hE' : (BoundaryOp.mk f.dims (bcTypes dirichlet)).matrixᵀ *ᵥ ((BoundaryOp.mk f.dims (bcTypes dirichlet)).matrix *ᵥ v) = v := hE
  have fac : ∀ i j l, basisValue f c x i j l = dirVal (isDeriv k c 0) f.Λ0 f.dΛ0 x.1 i * dirVal (isDeriv k c 1) f.Λ1 f.dΛ1 x.2.1 j
      * dirVal (isDeriv k c 2) f.Λ2 f.dΛ2 x.2.2 l := by
    intro i j l
    simp only [basisValue, factor, dirVal, hdk]
  have e : ∑ i ∈ range (f.dims.cshape c).1, ∑ j ∈ range (f.dims.cshape c).2.1, ∑ l ∈ range (f.dims.cshape c).2.2,
      coef f.dims ((BoundaryOp.mk f.dims (bcTypes dirichlet)).matrixᵀ *ᵥ ((BoundaryOp.mk f.dims (bcTypes dirichlet)).matrix *ᵥ v)) c i j l
        * basisValue f c x i j l
      = ∑ i ∈ range (dirSize (isDeriv k c 0) ns.1 types.1), (∑ j ∈ range (dirSize (isDeriv k c 1) ns.2.1 types.2.1),
        (∑ l ∈ range (dirSize (isDeriv k c 2) ns.2.2 types.2.2), g c (ξ c i, η c j, ζ c l) * (γ c l * dirVal (isDeriv k c 2) f.Λ2 f.dΛ2 x.2.2 l))
          * (β c j * dirVal (isDeriv k c 1) f.Λ1 f.dΛ1 x.2.1 j)) * (α c i * dirVal (isDeriv k c 0) f.Λ0 f.dΛ0 x.1 i) := by
    have hsum : ∀ i ∈ range (f.dims.cshape c).1, ∀ j ∈ range (f.dims.cshape c).2.1, ∀ l ∈ range (f.dims.cshape c).2.2,
        coef f.dims ((BoundaryOp.mk f.dims (bcTypes dirichlet)).matrixᵀ *ᵥ ((BoundaryOp.mk f.dims (bcTypes dirichlet)).matrix *ᵥ v)) c i j l = C c i j l := by
      intro i hi j hj l hl
      rw [← cv c i j l ⟨mem_range.mp hi, mem_range.mp hj, mem_range.mp hl⟩]
      exact congrArg (fun w => coef f.dims w c i j l) hE'
    have hcs := csh c hc
    refine (sum_congr (by rw [hcs]) fun i hi => ?_)
    rw [sum_mul]
    refine (sum_congr (by rw [hcs]) fun j hj => ?_)
    rw [sum_mul, sum_mul]
    refine (sum_congr (by rw [hcs]) fun l hl => ?_)
    rw [hsum i (by rw [hcs]; exact hi) j (by rw [hcs]; exact hj) l (by rw [hcs]; exact hl), fac i j l, hC]
    ring
  rw [e]
  obtain ⟨n0, u0, r0⟩ := ξn c x.1 hx.1.1 hx.1.2
  obtain ⟨n1, u1, r1⟩ := ηn c x.2.1 hx.2.1.1 hx.2.1.2
  obtain ⟨n2, u2, r2⟩ := ζn c x.2.2 hx.2.2.1 hx.2.2.2
  refine convex_close n0 u0 _ _ _ fun i hi hi0 => ?_
  refine convex_close n1 u1 _ _ _ fun j hj hj0 => ?_
  refine convex_close n2 u2 _ _ _ fun l hl hl0 => ?_
  exact hg c hc x _ ⟨⟨hx.1.1, hx.1.2.le⟩, ⟨hx.2.1.1, hx.2.1.2.le⟩, ⟨hx.2.2.1, hx.2.2.2.le⟩⟩ (cube c i j l) ⟨r0 i hi hi0, r1 j hj hj0, r2 l hl hl0⟩

/-! ## L2 projections -/

theorem dir_points_lt {n p q : Nat} {ty : String} (h : DirOK n p q ty) (hq : q ≤ 10) {s : SplineBasis ℝ}
    (hs : SplineBasis.mk? n p ty = .ok s) {xw : List ℝ × List ℝ} (hsel : selectQuadrature s q = .ok xw) : ∀ x ∈ xw.1, 0 ≤ x ∧ x < 1 := by
  rcases h with ⟨rfl, a, b, c, e⟩ | ⟨rfl, a, b, c, e, f⟩ | ⟨rfl, rfl, _⟩
  · obtain ⟨xs, ws, e1, e2, l1, l2, hi, hp, _⟩ := C11_select_rule n p a "clamped" (n - p) (Or.inl ⟨rfl, b, rfl⟩) s hs q (by omega) hq
    rw [hsel] at e1
    obtain rfl := Except.ok.inj e1
    exact fun x hx => ⟨(hi x hx).1.le, (hi x hx).2⟩
  · obtain ⟨xs, ws, e1, e2, l1, l2, hi, hp, _⟩ := C11_select_rule n p a "periodic" n (Or.inr ⟨rfl, c, b, rfl⟩) s hs q (by omega) hq
    rw [hsel] at e1
    obtain rfl := Except.ok.inj e1
    exact fun x hx => ⟨(hi x hx).1.le, (hi x hx).2⟩
  · have hty : s.type = "constant" := (Form.spline_mk?_ok hs).2.2
    have := hsel
    unfold selectQuadrature at this
    rw [hty] at this
    simp only [show ¬ ("constant" = "clamped") by decide, show ¬ ("constant" = "periodic") by decide,
      show ¬ ("constant" = "fourier") by decide, if_false, spectralQuad, show (1 ≤ 1 ∧ 1 ≤ 10) by decide, and_self, if_true] at this
    obtain rfl := Except.ok.inj this
    intro x hx
    obtain ⟨a, ha, rfl⟩ := List.mem_map.mp hx
    have : a = 0 := by
      have : (nodesAndWeights 1).1 = [0] := by decide +kernel
      rw [this] at ha
      simpa using ha
    subst this
    norm_num

section
variable {ns ps : Nat × Nat × Nat} {q : Nat} {types : String × String × String} {F : V3 → V3} {polar dirichlet : Bool} {D : DeRham}

/-- The quadrature points are inside the cube, or on its lower sides. -/
theorem points_in_open_cube (h : Admissible ns ps q types F polar dirichlet D) (x : ℝ × ℝ × ℝ) (hx : x ∈ D.S.Q.x) : InOpenCube x := by
  obtain ⟨m0, _, _, _, hQ⟩ := Seq.mk?_inv (Admissible.seq h.built)
  obtain ⟨_, hd, s0, s1, s2, _⟩ := Form.mk?_inv m0
  unfold Quad.Rule.mk? at hQ
  split at hQ
  case h_2 => cases hQ
  rename_i rx ry rz hx' hy' hz'
  have hQ' := Except.ok.inj hQ
  rw [← hQ'] at hx
  simp only [Quad.Rule.ofRules, List.mem_flatMap, List.mem_map] at hx
  obtain ⟨b, hb, a, ha, c, hc, rfl⟩ := hx
  exact ⟨dir_points_lt h.r h.q10 s0 hx' a ha, dir_points_lt h.t h.q10 s1 hy' b hb, dir_points_lt h.z h.q10 s2 hz' c hc⟩

theorem l2_le_at_points {d : Nat} (h : Admissible ns ps q types F polar dirichlet D) (g : V3 → Fin d → ℝ) (B : ℝ)
    (hg : ∀ j < D.nq, g (D.x j) ⬝ᵥ g (D.x j) ≤ B) : l2Product g g D.S.Q F ≤ B * quadVolume D F := by
  rw [h.l2_eq]
  have e : quadVolume D F = ∑ j ∈ range D.nq, (jacfwd F (D.x j)).det * D.w j := rfl
  rw [e, mul_sum]
  refine sum_le_sum fun j hj => mul_le_mul_of_nonneg_right (hg _ (mem_range.mp hj)) ?_
  have hw := w_pos h.core (mem_range.mp hj)
  have hJ := h.regular _ (h.pointAt (mem_range.mp hj)).2
  exact mul_nonneg (le_trans (by norm_num) hJ) hw.le

theorem sq3 (e : Fin 3 → ℝ) (ε : ℝ) (h : ∀ k, |e k| ≤ ε) : e ⬝ᵥ e ≤ 3 * ε ^ 2 := by
  have : ∀ k, e k * e k ≤ ε ^ 2 := fun k => by
    rw [← sq, ← sq_abs]
    exact pow_le_pow_left₀ (abs_nonneg _) (h k) 2
  simp only [dotProduct, Fin.sum_univ_three]
  linarith [this 0, this 1, this 2]

/-- **C100** 1-forms: if the covariant components `DFᵀ v` vary by at most `ε` within the resolution, and `κ`
bounds `|DF⁻ᵀ e|² / |e|²` at the quadrature points, the squared quadrature-L2 error of the L2 projection of
`v` is at most `3 κ ε²` times the volume. With the Dirichlet condition the tangential components have to vanish on the two radial ends. -/
theorem C100_oneform_projection (h : Admissible ns ps q types F false dirichlet D) (v : V3 → V3) (ε κ : ℝ) (hκ0 : 0 ≤ κ)
    (hv : ∀ c x y, InCube x → InCube y → Near3 ns ps types x y →
      |((jacfwd F (toV3 x))ᵀ *ᵥ v (toV3 x)) c - ((jacfwd F (toV3 y))ᵀ *ᵥ v (toV3 y)) c| ≤ ε)
    (hκ : ∀ x ∈ D.S.Q.x, ∀ e : V3, (((jacfwd F (toV3 x))⁻¹)ᵀ *ᵥ e) ⬝ᵥ (((jacfwd F (toV3 x))⁻¹)ᵀ *ᵥ e) ≤ κ * (e ⬝ᵥ e))
    (hbc : dirichlet = true → types.1 = "clamped" ∧ ∀ c : Fin 3, c ≠ 0 → ∀ x, InCube x → x.1 = 0 ∨ x.1 = 1 → ((jacfwd F (toV3 x))ᵀ *ᵥ v (toV3 x)) c = 0) :
    l2Product (fun x => v x - D.phys1 (D.M1⁻¹ *ᵥ D.projector1 v) x) (fun x => v x - D.phys1 (D.M1⁻¹ *ᵥ D.projector1 v) x) D.S.Q F
      ≤ 3 * κ * ε ^ 2 * quadVolume D F := by
  obtain ⟨_, best, _, _, _, pos, _⟩ := C36_best_approximation h
  obtain ⟨u, hu⟩ : ∃ u, ∀ x ∈ D.S.Q.x, ∀ c : Fin 3, |((jacfwd F (toV3 x))ᵀ *ᵥ v (toV3 x)) c - D.form1 u (toV3 x) c| ≤ ε := by
    obtain ⟨_, m1, _, _, hQ⟩ := Seq.mk?_inv (Admissible.seq h.built)
    obtain ⟨_, k1, _, _⟩ := h.degrees
    have hlen : D.S.L1.dims.shape.length = 3 := by simp [Dims.shape, k1]
    have cub := points_in_open_cube h
    obtain ⟨S, hS, ⟨hp, _⟩ | ⟨hp, rfl⟩⟩ := Admissible.cases' h.built
    · cases hp
    obtain ⟨u, hu⟩ := C100_components 1 (Or.inr (Or.inl rfl)) S.L1 m1 h.r h.t h.z dirichlet
      (fun c x => if hc : c < 3 then ((jacfwd F (toV3 x))ᵀ *ᵥ v (toV3 x)) ⟨c, hc⟩ else 0) ε
      (fun c hc x y hx hy hxy => by
        have hc' : c < 3 := by rw [← hlen]; exact hc
        simp only [hc', dite_true]
        exact hv _ x y hx hy hxy)
      (fun hdir => ⟨(hbc hdir).1, fun c hc x hx hend => by
        beta_reduce
        split_ifs with hc'
        · refine (hbc hdir).2 ⟨c, hc'⟩ (fun h0 => ?_) x hx hend
          have : c = 0 := congrArg Fin.val h0
          subst this
          simp [isDeriv] at hc
        · rfl⟩)
    refine ⟨u, fun x hx c => ?_⟩
    have := hu c (by rw [show S.L1.dims.shape.length = 3 from hlen]; exact c.isLt) x (cub x hx)
    simp only [c.isLt, dite_true] at this
    unfold form1
    rw [fromV3_toV3]
    exact this
  have e := best v u
  have p := (pos (u - D.M1⁻¹ *ᵥ D.projector1 v)).1
  have b := l2_le_at_points h (fun x => v x - D.phys1 u x) (3 * κ * ε ^ 2) fun j hj => by
    obtain ⟨_, _, _, i1, i2, _, _⟩ := h.metricAt hj
    have hx := (h.pointAt hj).2
    have xe : D.x j = toV3 (D.S.point j) := rfl
    obtain ⟨A, hA⟩ : ∃ A, A = jacfwd F (D.x j) := ⟨_, rfl⟩
    have e1 : v (D.x j) - D.phys1 u (D.x j) = (A⁻¹)ᵀ *ᵥ (Aᵀ *ᵥ v (D.x j) - D.form1 u (D.x j)) := by
      rw [h.phys1_eq u hj, mulVec_sub, mulVec_mulVec, ← transpose_mul, hA, i1, transpose_one, one_mulVec]
    beta_reduce
    rw [e1]
    have h2 := sq3 (Aᵀ *ᵥ v (D.x j) - D.form1 u (D.x j)) ε fun k => by
      rw [hA, xe]
      exact hu _ hx k
    have h3 := hκ _ hx (Aᵀ *ᵥ v (D.x j) - D.form1 u (D.x j))
    rw [← xe, ← hA] at h3
    refine h3.trans ?_
    calc _ ≤ κ * (3 * ε ^ 2) := mul_le_mul_of_nonneg_left h2 hκ0
      _ = _ := by ring
  linarith

/-- **C100** 2-forms: the same with the contravariant density components `J DF⁻¹ v` and a bound `κ` of `|DF e / J|² / |e|²`.
With the Dirichlet condition the normal component has to vanish on the two radial ends. -/
theorem C100_twoform_projection (h : Admissible ns ps q types F false dirichlet D) (v : V3 → V3) (ε κ : ℝ) (hκ0 : 0 ≤ κ)
    (hv : ∀ c x y, InCube x → InCube y → Near3 ns ps types x y →
      |(jacfwd F (toV3 x)).det * ((jacfwd F (toV3 x))⁻¹ *ᵥ v (toV3 x)) c - (jacfwd F (toV3 y)).det * ((jacfwd F (toV3 y))⁻¹ *ᵥ v (toV3 y)) c| ≤ ε)
    (hκ : ∀ x ∈ D.S.Q.x, ∀ e : V3, (jacfwd F (toV3 x) *ᵥ e) ⬝ᵥ (jacfwd F (toV3 x) *ᵥ e) ≤ κ * (jacfwd F (toV3 x)).det ^ 2 * (e ⬝ᵥ e))
    (hbc : dirichlet = true → types.1 = "clamped" ∧ ∀ x, InCube x → x.1 = 0 ∨ x.1 = 1 →
      (jacfwd F (toV3 x)).det * ((jacfwd F (toV3 x))⁻¹ *ᵥ v (toV3 x)) 0 = 0) :
    l2Product (fun x => v x - D.phys2 (D.M2⁻¹ *ᵥ D.projector2 v) x) (fun x => v x - D.phys2 (D.M2⁻¹ *ᵥ D.projector2 v) x) D.S.Q F
      ≤ 3 * κ * ε ^ 2 * quadVolume D F := by
  obtain ⟨_, _, best, _, _, _, pos, _⟩ := C36_best_approximation h
  obtain ⟨u, hu⟩ : ∃ u, ∀ x ∈ D.S.Q.x, ∀ c : Fin 3,
      |(jacfwd F (toV3 x)).det * ((jacfwd F (toV3 x))⁻¹ *ᵥ v (toV3 x)) c - D.form2 u (toV3 x) c| ≤ ε := by
    obtain ⟨_, _, m2, _, hQ⟩ := Seq.mk?_inv (Admissible.seq h.built)
    obtain ⟨_, _, k2, _⟩ := h.degrees
    have hlen : D.S.L2.dims.shape.length = 3 := by simp [Dims.shape, k2]
    have cub := points_in_open_cube h
    obtain ⟨S, hS, ⟨hp, _⟩ | ⟨hp, rfl⟩⟩ := Admissible.cases' h.built
    · cases hp
    obtain ⟨u, hu⟩ := C100_components 2 (Or.inr (Or.inr (Or.inl rfl))) S.L2 m2 h.r h.t h.z dirichlet
      (fun c x => if hc : c < 3 then (jacfwd F (toV3 x)).det * ((jacfwd F (toV3 x))⁻¹ *ᵥ v (toV3 x)) ⟨c, hc⟩ else 0) ε
      (fun c hc x y hx hy hxy => by
        have hc' : c < 3 := by rw [← hlen]; exact hc
        simp only [hc', dite_true]
        exact hv _ x y hx hy hxy)
      (fun hdir => ⟨(hbc hdir).1, fun c hc x hx hend => by
        beta_reduce
        split_ifs with hc'
        · have : c = 0 := by
            by_contra hne
            simp [isDeriv, eq_comm, hne] at hc
          subst this
          exact (hbc hdir).2 x hx hend
        · rfl⟩)
    refine ⟨u, fun x hx c => ?_⟩
    have := hu c (by rw [show S.L2.dims.shape.length = 3 from hlen]; exact c.isLt) x (cub x hx)
    simp only [c.isLt, dite_true] at this
    unfold form2
    rw [fromV3_toV3]
    exact this
  have e := best v u
  have p := (pos (u - D.M2⁻¹ *ᵥ D.projector2 v)).1
  have b := l2_le_at_points h (fun x => v x - D.phys2 u x) (3 * κ * ε ^ 2) fun j hj => by
    obtain ⟨_, _, _, i1, i2, _, hJ⟩ := h.metricAt hj
    have hx := (h.pointAt hj).2
    have xe : D.x j = toV3 (D.S.point j) := rfl
    obtain ⟨A, hA⟩ : ∃ A, A = jacfwd F (D.x j) := ⟨_, rfl⟩
    obtain ⟨w, hw⟩ : ∃ w : V3, w = A.det • (A⁻¹ *ᵥ v (D.x j)) - D.form2 u (D.x j) := ⟨_, rfl⟩
    rw [← hA] at hJ
    have e1 : v (D.x j) - D.phys2 u (D.x j) = (1 / A.det) • (A *ᵥ w) := by
      rw [h.phys2_eq u hj, hw, mulVec_sub, smul_sub, mulVec_smul, mulVec_mulVec, smul_smul, one_div_mul_cancel hJ.ne', one_smul, hA, i1, one_mulVec]
    beta_reduce
    rw [e1]
    have h2 := sq3 w ε fun k => by
      rw [hw, hA, xe]
      exact hu _ hx k
    have h3 := hκ _ hx w
    rw [← xe, ← hA] at h3
    have hJ2 : 0 < A.det ^ 2 := by positivity
    rw [smul_dotProduct, dotProduct_smul, smul_eq_mul, smul_eq_mul]
    have e2 : 1 / A.det * (1 / A.det * ((A *ᵥ w) ⬝ᵥ (A *ᵥ w))) = ((A *ᵥ w) ⬝ᵥ (A *ᵥ w)) / A.det ^ 2 := by
      field_simp
    rw [e2, div_le_iff₀ hJ2]
    refine h3.trans ?_
    calc κ * A.det ^ 2 * (w ⬝ᵥ w) ≤ κ * A.det ^ 2 * (3 * ε ^ 2) := mul_le_mul_of_nonneg_left h2 (by positivity)
      _ = _ := by ring
  linarith

/-- **C100** 3-forms: the same with the density `J f` and a bound `κ` of `1/J²`; no boundary condition is involved. -/
theorem C100_threeform_projection (h : Admissible ns ps q types F false dirichlet D) (f : V3 → Fin 1 → ℝ) (ε κ : ℝ)
    (hf : ∀ x y, InCube x → InCube y → Near3 ns ps types x y →
      |(jacfwd F (toV3 x)).det * f (toV3 x) 0 - (jacfwd F (toV3 y)).det * f (toV3 y) 0| ≤ ε)
    (hκ : ∀ x ∈ D.S.Q.x, 1 / (jacfwd F (toV3 x)).det ^ 2 ≤ κ) (htype : dirichlet = true → types.1 = "clamped") :
    l2Product (fun x => f x - D.phys3 (D.M3⁻¹ *ᵥ D.projector3 f) x) (fun x => f x - D.phys3 (D.M3⁻¹ *ᵥ D.projector3 f) x) D.S.Q F
      ≤ κ * ε ^ 2 * quadVolume D F := by
  obtain ⟨_, _, _, best, _, _, _, pos⟩ := C36_best_approximation h
  obtain ⟨u, hu⟩ : ∃ u, ∀ x ∈ D.S.Q.x, |(jacfwd F (toV3 x)).det * f (toV3 x) 0 - D.form3 u (toV3 x) 0| ≤ ε := by
    obtain ⟨_, _, _, m3, hQ⟩ := Seq.mk?_inv (Admissible.seq h.built)
    obtain ⟨_, _, _, k3⟩ := h.degrees
    have hlen : D.S.L3.dims.shape.length = 1 := by simp [Dims.shape, k3]
    have cub := points_in_open_cube h
    obtain ⟨S, hS, ⟨hp, _⟩ | ⟨hp, rfl⟩⟩ := Admissible.cases' h.built
    · cases hp
    obtain ⟨u, hu⟩ := C100_components 3 (Or.inr (Or.inr (Or.inr rfl))) S.L3 m3 h.r h.t h.z dirichlet
      (fun c x => (jacfwd F (toV3 x)).det * f (toV3 x) 0) ε (fun c _ x y hx hy hxy => hf x y hx hy hxy)
      (fun hdir => ⟨htype hdir, fun c hc => by simp [isDeriv] at hc⟩)
    refine ⟨u, fun x hx => ?_⟩
    have := hu 0 (by rw [show S.L3.dims.shape.length = 1 from hlen]; exact zero_lt_one) x (cub x hx)
    unfold form3
    rw [fromV3_toV3]
    exact this
  have e := best f u
  have p := (pos (u - D.M3⁻¹ *ᵥ D.projector3 f)).1
  have b := l2_le_at_points h (fun x => f x - D.phys3 u x) (κ * ε ^ 2) fun j hj => by
    obtain ⟨_, _, _, i1, i2, _, hJ⟩ := h.metricAt hj
    have hx := (h.pointAt hj).2
    have xe : D.x j = toV3 (D.S.point j) := rfl
    have h1 := hu _ hx
    have h2 := hκ _ hx
    rw [← xe] at h1 h2
    have hJ2 : 0 < (jacfwd F (D.x j)).det ^ 2 := by positivity
    simp only [dotProduct, univ_unique, Fin.default_eq_zero, Fin.isValue, Pi.sub_apply, sum_singleton]
    rw [h.phys3_eq u hj, Pi.smul_apply, smul_eq_mul]
    have h3 : ((jacfwd F (D.x j)).det * f (D.x j) 0 - D.form3 u (D.x j) 0) ^ 2 ≤ ε ^ 2 := by
      rw [← sq_abs]
      exact pow_le_pow_left₀ (abs_nonneg _) h1 2
    have e2 : (f (D.x j) 0 - 1 / (jacfwd F (D.x j)).det * D.form3 u (D.x j) 0) * (f (D.x j) 0 - 1 / (jacfwd F (D.x j)).det * D.form3 u (D.x j) 0)
        = 1 / (jacfwd F (D.x j)).det ^ 2 * ((jacfwd F (D.x j)).det * f (D.x j) 0 - D.form3 u (D.x j) 0) ^ 2 := by
      field_simp
    rw [e2]
    exact mul_le_mul h2 h3 (sq_nonneg _) (le_trans (by positivity) h2)
  linarith

/-- Non-vacuity: the field `(0, x₀, 0)` on the identity map. -/
example : ∃ D, Admissible (202, 5, 5) (2, 2, 2) 3 ("clamped", "clamped", "clamped") (fun y => y) false true D ∧
    l2Product (fun x => ![0, x 0, 0] - D.phys2 (D.M2⁻¹ *ᵥ D.projector2 fun x => ![0, x 0, 0]) x)
      (fun x => ![0, x 0, 0] - D.phys2 (D.M2⁻¹ *ᵥ D.projector2 fun x => ![0, x 0, 0]) x) D.S.Q (fun y => y) ≤ 3 * 1 * (3 / 400) ^ 2 * quadVolume D (fun y => y) := by
  obtain ⟨D, h⟩ := Admissible.exists (ns := (202, 5, 5)) (ps := (2, 2, 2)) (q := 3) (types := ("clamped", "clamped", "clamped"))
    (fun y => y) false true (by norm_num) (by unfold DirOK; norm_num) (by unfold DirOK; norm_num) (by unfold DirOK; norm_num)
    (by intro h; cases h) fun x => by rw [jacobianDeterminant_id]; norm_num
  have hid : ∀ x : V3, jacfwd (fun y => y) x = (1 : M33) := fun x => by
    have := jacfwd_mulVec 1 x
    simp only [one_mulVec] at this
    exact this
  refine ⟨D, h, C100_twoform_projection h (fun x => ![0, x 0, 0]) (3 / 400) 1 zero_le_one ?_ ?_ ?_⟩
  · intro c x y hx hy hxy
    rw [hid, hid]
    simp only [det_one, inv_one, one_mulVec, one_mul]
    rcases hxy.1 with ⟨hc, _⟩ | ⟨_, hn⟩
    · exact absurd hc (by decide)
    · have hr : reach 202 2 "clamped" = 3 / 400 := by
        unfold reach
        rw [if_pos rfl]
        norm_num
      rw [hr] at hn
      fin_cases c
      · simp; norm_num
      · simpa [toV3] using hn
      · simp; norm_num
  · intro x _ e
    rw [hid]
    simp
  · intro _
    refine ⟨rfl, fun x _ _ => ?_⟩
    rw [hid]
    simp

end

/-- Case of `C100_oneform_projection`: the field `(x₀, 0, 0)` on the identity map. -/
example : ∃ D, Admissible (202, 5, 5) (2, 2, 2) 3 ("clamped", "clamped", "clamped") (fun y => y) false true D ∧
    l2Product (fun x => ![x 0, 0, 0] - D.phys1 (D.M1⁻¹ *ᵥ D.projector1 fun x => ![x 0, 0, 0]) x)
      (fun x => ![x 0, 0, 0] - D.phys1 (D.M1⁻¹ *ᵥ D.projector1 fun x => ![x 0, 0, 0]) x) D.S.Q (fun y => y) ≤ 3 * 1 * (3 / 400) ^ 2 * quadVolume D (fun y => y) := by
  obtain ⟨D, h⟩ := Admissible.exists (ns := (202, 5, 5)) (ps := (2, 2, 2)) (q := 3) (types := ("clamped", "clamped", "clamped"))
    (fun y => y) false true (by norm_num) (by unfold DirOK; norm_num) (by unfold DirOK; norm_num) (by unfold DirOK; norm_num)
    (by intro h; cases h) fun x => by rw [jacobianDeterminant_id]; norm_num
  have hid : ∀ x : V3, jacfwd (fun y => y) x = (1 : M33) := fun x => by
    have := jacfwd_mulVec 1 x
    simp only [one_mulVec] at this
    exact this
  refine ⟨D, h, C100_oneform_projection h (fun x => ![x 0, 0, 0]) (3 / 400) 1 zero_le_one ?_ ?_ ?_⟩
  · intro c x y hx hy hxy
    rw [hid, hid]
    simp only [transpose_one, one_mulVec]
    rcases hxy.1 with ⟨hc, _⟩ | ⟨_, hn⟩
    · exact absurd hc (by decide)
    · have hr : reach 202 2 "clamped" = 3 / 400 := by
        unfold reach
        rw [if_pos rfl]
        norm_num
      rw [hr] at hn
      fin_cases c
      · simpa [toV3] using hn
      · simp; norm_num
      · simp; norm_num
  · intro x _ e
    rw [hid]
    simp
  · intro _
    refine ⟨rfl, fun c hc x _ _ => ?_⟩
    rw [hid]
    fin_cases c <;> simp at hc ⊢

/-- Case of `C100_components`: a 1-form with constant components 0, 2 and 3, without boundary conditions. -/
example := C100_components (q := 3) 1 (Or.inr (Or.inl rfl)) _ (show Form.mk? 1 (6, 6, 4) (3, 2, 1) ("clamped", "periodic", "periodic") = .ok _ from rfl)
  (by unfold DirOK; norm_num) (by unfold DirOK; norm_num) (by unfold DirOK; norm_num) false (fun c _ => if c = 0 then 0 else c + 1) 0 (by simp) (by simp)

end Mrx.Props
