import Verif.Proofs.Case
import Verif.Model.Gvec
import Verif.Proofs.Lstsq
import Verif.Proofs.Exists
import Verif.Props.Mappings2

/-!
# C81: the interpolation of GVEC equilibria
-/

set_option linter.unusedSectionVars false
set_option linter.unusedVariables false

namespace Mrx.Props
open Matrix Mrx Mrx.Spec Mrx.Jax Finset Mrx.DeRham

variable (eq : GvecEq) (nfp : ℝ)

/-- The logical position of the grid point `(i, j, k)`. -/
noncomputable def gridPoint (i j k : Nat) : V3 := gvecPoint nfp (eq.rho.getD i 0) (eq.theta.getD j 0) (eq.zeta.getD k 0)

/-- The squared distance of a function from data on the grid. -/
noncomputable def gridMisfit (f : V3 → ℝ) (X : Nat → Nat → Nat → ℝ) : ℝ :=
  ∑ i ∈ range eq.rho.length, ∑ j ∈ range eq.theta.length, ∑ k ∈ range eq.zeta.length, (f (gridPoint eq nfp i j k) - X i j k) ^ 2

/-- The squared distance of a vector field from the data `B`, on the grid points away from axis and boundary. -/
noncomputable def fieldMisfit (f : V3 → V3) : ℝ :=
  ∑ i ∈ range eq.rho.length, ∑ j ∈ range eq.theta.length, ∑ k ∈ range eq.zeta.length,
    if 1e-3 < eq.rho.getD i 0 ∧ eq.rho.getD i 0 < 1 - 1e-3 then ∑ c, (f (gridPoint eq nfp i j k) c - eq.B i j k c) ^ 2 else 0

/-- The physical field of a coefficient vector under the map `Phi`. -/
noncomputable def physUnder (D : DeRham) (Phi : V3 → V3) (u : Fin D.m2 → ℝ) (x : V3) : V3 := (Pushforward.vector 2 (D.form2 u) Phi x).getD 0

/-! ## Auxiliary facts -/

theorem ravel_flat {α : Type} (a : Nat → Nat → Nat → α) {i j k : Nat} (hj : j < eq.theta.length) (hk : k < eq.zeta.length) :
    eq.ravel a ((i * eq.theta.length + j) * eq.zeta.length + k) = a i j k := by
  have e1 : ((i * eq.theta.length + j) * eq.zeta.length + k) / eq.zeta.length = i * eq.theta.length + j := by
    rw [Nat.mul_comm _ eq.zeta.length, Nat.mul_add_div (by omega), Nat.div_eq_of_lt hk, Nat.add_zero]
  have e2 : ((i * eq.theta.length + j) * eq.zeta.length + k) % eq.zeta.length = k := by
    rw [Nat.mul_comm _ eq.zeta.length, Nat.mul_add_mod, Nat.mod_eq_of_lt hk]
  have e3 : (i * eq.theta.length + j) / eq.theta.length = i := by
    rw [Nat.mul_comm _ eq.theta.length, Nat.mul_add_div (by omega), Nat.div_eq_of_lt hj, Nat.add_zero]
  have e4 : (i * eq.theta.length + j) % eq.theta.length = j := by
    rw [Nat.mul_comm _ eq.theta.length, Nat.mul_add_mod, Nat.mod_eq_of_lt hj]
  unfold GvecEq.ravel
  rw [e1, e2, e3, e4]

theorem pts_flat {i j k : Nat} (hj : j < eq.theta.length) (hk : k < eq.zeta.length) :
    eq.pts nfp ((i * eq.theta.length + j) * eq.zeta.length + k) = gridPoint eq nfp i j k := by
  unfold GvecEq.pts
  rw [ravel_flat eq _ hj hk, ravel_flat eq _ hj hk, ravel_flat eq _ hj hk]
  rfl

theorem sum_grid {M : Type*} [AddCommMonoid M] (f : Nat → M) :
    ∑ n ∈ range eq.size, f n = ∑ i ∈ range eq.rho.length, ∑ j ∈ range eq.theta.length, ∑ k ∈ range eq.zeta.length,
      f ((i * eq.theta.length + j) * eq.zeta.length + k) := sum_range_mul3 _ _ _ f

theorem misfit_sum {m n : Nat} (A : Matrix (Fin m) (Fin n) ℝ) (b : Fin m → ℝ) (x : Fin n → ℝ) :
    misfit A b x = ∑ r, ((∑ i, A r i * x i) - b r) ^ 2 := by
  unfold misfit dotProduct
  exact sum_congr rfl fun r _ => by rw [Pi.sub_apply, sq]; rfl

/-- The misfit of the linear system is the misfit on the grid. -/
theorem mapMatrix_misfit (D : DeRham) (X : Nat → Nat → Nat → ℝ) (c : Fin D.S.L0.dims.n → ℝ) :
    misfit (eq.mapMatrix nfp D) (fun j => eq.ravel X j) c =
      gridMisfit eq nfp (fun y => ∑ l : Fin D.S.L0.dims.n, D.S.L0.evaluate (fromV3 y) l 0 * c l) X := by
  rw [misfit_sum]
  refine (Fin.sum_univ_eq_sum_range (fun n => ((∑ l : Fin D.S.L0.dims.n, D.S.L0.evaluate (fromV3 (eq.pts nfp n)) l 0 * c l) - eq.ravel X n) ^ 2) _).trans ?_
  rw [sum_grid]
  unfold gridMisfit
  refine sum_congr rfl fun i _ => sum_congr rfl fun j hj => sum_congr rfl fun k hk => ?_
  rw [mem_range] at hj hk
  rw [pts_flat eq nfp hj hk, ravel_flat eq X hj hk]

/-- Without boundary conditions the extraction matrix is the identity. -/
theorem free_matrix (Λ : Dims) (hk : Λ.k = 0) (r : Fin (BoundaryOp.mk Λ (bcTypes false)).rowDims.n) (c : Fin Λ.n) :
    (BoundaryOp.mk Λ (bcTypes false)).matrix r c = if r.1 = c.1 then 1 else 0 := by
  have hv : Dims.validDegree Λ.k := by unfold Dims.validDegree; omega
  obtain ⟨a1, a2⟩ := (BoundaryOp.mk Λ (bcTypes false)).rowDims.unravelIndex_inRange hv r.2
  obtain ⟨b1, b2⟩ := Λ.unravelIndex_inRange hv c.2
  have e := BoundaryOp.element_eq (BoundaryOp.mk Λ (bcTypes false)) (Or.inl hk) a1 b1
  have hs : ∀ c d, (BoundaryOp.mk Λ (bcTypes false)).sh c d = 0 := by
    intro c d
    unfold BoundaryOp.sh
    split
    · rfl
    · have : ∀ d, typeOf (bcTypes false) d = "none" := by
        intro d
        rcases d with _ | _ | d <;> rfl
      rw [this]
      decide
  rw [a2, b2] at e
  simp only [hs, Nat.add_zero] at e
  unfold BoundaryOp.matrix
  rw [e]
  have iff1 : ((BoundaryOp.mk Λ (bcTypes false)).rowDims.unravelIndex r.1).1 = (Λ.unravelIndex c.1).1 ∧
      ((BoundaryOp.mk Λ (bcTypes false)).rowDims.unravelIndex r.1).2.1 = (Λ.unravelIndex c.1).2.1 ∧
      ((BoundaryOp.mk Λ (bcTypes false)).rowDims.unravelIndex r.1).2.2.1 = (Λ.unravelIndex c.1).2.2.1 ∧
      ((BoundaryOp.mk Λ (bcTypes false)).rowDims.unravelIndex r.1).2.2.2 = (Λ.unravelIndex c.1).2.2.2 ↔ r.1 = c.1 := by
    constructor
    · rintro ⟨h1, h2, h3, h4⟩
      rw [← a2, ← b2, h1, h2, h3, h4]
      rfl
    · intro h
      rw [h]
      exact ⟨rfl, rfl, rfl, rfl⟩
  by_cases h : r.1 = c.1
  · rw [if_pos (iff1.mpr h), if_pos h]; simp
  · rw [if_neg (fun h' => h (iff1.mp h')), if_neg h]; simp

variable {ns ps : Nat × Nat × Nat} {q : Nat} {types : String × String × String} {F : V3 → V3} {polar dirichlet : Bool} {D : DeRham}

/-- The extraction matrix of a sequence without polar axis and boundary conditions. -/
theorem free_E0 (h : Admissible ns ps q types F false false D) (r : Fin D.m0) (c : Fin D.S.L0.dims.n) :
    D.m0 = D.S.L0.dims.n ∧ D.E0 r c = if r.1 = c.1 then 1 else 0 := by
  have k0 := h.degrees.1
  obtain ⟨S, hS, ⟨hp, rfl⟩ | ⟨hp, rfl⟩⟩ := Admissible.cases' h.built
  · cases hp
  · exact ⟨rfl, free_matrix S.L0.dims k0 r c⟩

/-- Sizes: only then are there as many degrees of freedom as basis functions. -/
theorem m0_iff (h : Admissible ns ps q types F polar dirichlet D) :
    (D.m0 = D.S.L0.dims.n ↔ polar = false ∧ dirichlet = false) ∧ D.m0 ≤ D.S.L0.dims.n := by
  have hd := h.dims0
  have pos : ∀ n p q ty, DirOK n p q ty → 1 ≤ n := by
    intro n p q ty hk
    unfold DirOK at hk
    rcases hk with ⟨rfl, _⟩ | ⟨rfl, _⟩ | ⟨rfl, _⟩ <;> omega
  have p1 := pos _ _ _ _ h.r
  have p2 := pos _ _ _ _ h.t
  have p3 := pos _ _ _ _ h.z
  have hpol := h.polar
  obtain ⟨S, hS, ⟨hp, rfl⟩ | ⟨hp, rfl⟩⟩ := Admissible.cases' h.built
  · obtain ⟨_, _, _, hr, ht⟩ := hpol hp
    have hd' : S.L0.dims = _ := hd
    have lt : (PolarOp.mk S.L0.dims (getXi ns.2.1) dirichlet).n < S.L0.dims.n := by
      rw [hd']
      simp only [PolarOp.n, PolarOp.n1, PolarOp.n2, PolarOp.n3, if_true, PolarOp.discSize, Dims.n, Dims.n1, Dims.n2, Dims.n3]
      have : (ns.1 - 2 - (PolarOp.mk ⟨0, ns.1, ns.2.1, ns.2.2, Form.dsize ns.1 types.1, Form.dsize ns.2.1 types.2.1,
          Form.dsize ns.2.2 types.2.2⟩ (getXi ns.2.1) dirichlet).o) * ns.2.1 + 3 < ns.1 * ns.2.1 := by
        have : (ns.1 - 2 - (PolarOp.mk ⟨0, ns.1, ns.2.1, ns.2.2, Form.dsize ns.1 types.1, Form.dsize ns.2.1 types.2.1,
          Form.dsize ns.2.2 types.2.2⟩ (getXi ns.2.1) dirichlet).o) * ns.2.1 ≤ (ns.1 - 2) * ns.2.1 := Nat.mul_le_mul_right _ (by omega)
        have e : ns.1 * ns.2.1 = (ns.1 - 2) * ns.2.1 + 2 * ns.2.1 := by rw [← Nat.add_mul]; congr 1; omega
        omega
      nlinarith [Nat.mul_lt_mul_of_pos_right this (show 0 < ns.2.2 by omega)]
    refine ⟨⟨fun e => absurd e (Nat.ne_of_lt lt), fun e => ?_⟩, lt.le⟩
    rw [hp] at e
    cases e.1
  · have hd' : S.L0.dims = _ := hd
    cases dirichlet
    · exact ⟨⟨fun _ => ⟨hp, rfl⟩, fun _ => rfl⟩, le_refl _⟩
    · have lt : (BoundaryOp.mk S.L0.dims (bcTypes true)).rowDims.n < S.L0.dims.n := by
        rw [hd']
        show (getDim ns.1 "dirichlet") * ns.2.1 * ns.2.2 + 0 + 0 < ns.1 * ns.2.1 * ns.2.2 + 0 + 0
        have : getDim ns.1 "dirichlet" = ns.1 - 2 := rfl
        rw [this]
        have a : (ns.1 - 2) * (ns.2.1 * ns.2.2) < ns.1 * (ns.2.1 * ns.2.2) := Nat.mul_lt_mul_of_pos_right (by omega) (Nat.mul_pos p2 p3)
        simpa [Nat.mul_assoc] using a
      refine ⟨⟨fun e => absurd e (Nat.ne_of_lt lt), fun e => ?_⟩, lt.le⟩
      cases e.2

theorem free_form0 (h : Admissible ns ps q types F false false D) (e : D.m0 = D.S.L0.dims.n) (c : Fin D.S.L0.dims.n → ℝ) (y : V3) :
    D.form0 (fun i => c (Fin.cast e i)) y 0 = ∑ l : Fin D.S.L0.dims.n, D.S.L0.evaluate (fromV3 y) l 0 * c l := by
  unfold form0 discreteFunction dotProduct
  refine sum_congr rfl fun l _ => ?_
  have : vecMul (fun i => c (Fin.cast e i)) D.E0 l = c l := by
    unfold vecMul dotProduct
    rw [sum_eq_single (Fin.cast e.symm l)]
    · beta_reduce
      rw [(free_E0 h _ _).2]; simp
    · intro b _ hb
      beta_reduce
      rw [(free_E0 h _ _).2, if_neg (show ¬ b.1 = l.1 from fun e' => hb (Fin.ext e')), mul_zero]
    · simp
  rw [this, mul_comm]
  rfl

/-- The logical field of a coefficient vector is linear in it. -/
theorem form2_sum (u : Fin D.m2 → ℝ) (y : V3) (c : Fin 3) :
    D.form2 u y c = ∑ i, (∑ l, D.E2 i l * D.S.L2.evaluate (fromV3 y) l c) * u i := by
  unfold form2 discreteFunction dotProduct vecMul dotProduct
  simp only [sum_mul]
  rw [sum_comm]
  exact sum_congr rfl fun i _ => sum_congr rfl fun l _ => by ring

theorem physUnder_sum (Phi : V3 → V3) (u : Fin D.m2 → ℝ) (x : V3) (c : Fin 3) :
    physUnder D Phi u x c = ∑ i, (∑ l : Fin D.S.L2.dims.n, D.E2 i l * GvecEq.phys2Basis D Phi l x c) * u i := by
  have e : physUnder D Phi u x c = (jacfwd Phi x *ᵥ D.form2 u x) c / (jacfwd Phi x).det := rfl
  rw [e]
  have f2 : (D.form2 u x : V3) = fun c : Fin 3 => ∑ i, (∑ l, D.E2 i l * D.S.L2.evaluate (fromV3 x) l c) * u i := funext fun c => form2_sum u x c
  rw [f2]
  unfold GvecEq.phys2Basis mulVec dotProduct
  simp only [mul_sum, sum_mul, sum_div]
  rw [sum_comm]
  refine sum_congr rfl fun i _ => ?_
  rw [sum_comm]
  exact sum_congr rfl fun l _ => sum_congr rfl fun a _ => by ring

theorem getD_sum {M : Type*} [AddCommMonoid M] (f : Nat → M) : ∀ (l : List Nat), ∑ j ∈ range l.length, f (l.getD j 0) = (l.map f).sum := by
  intro l
  induction l with
  | nil => simp
  | cons a l ih =>
    rw [List.length_cons, sum_range_succ', List.map_cons, List.sum_cons, add_comm, ← ih]
    rfl

theorem filter_sum {M : Type*} [AddCommMonoid M] (p : Nat → Bool) (f : Nat → M) : ∀ (l : List Nat),
    ((l.filter p).map f).sum = (l.map fun n => if p n = true then f n else 0).sum := by
  intro l
  induction l with
  | nil => simp
  | cons a l ih =>
    rw [List.filter_cons]
    by_cases ha : p a = true
    · rw [if_pos ha]; simp [ih, ha]
    · rw [if_neg ha]; simp [ih, ha]

theorem list_range_sum {M : Type*} [AddCommMonoid M] (f : Nat → M) (n : Nat) : ((List.range n).map f).sum = ∑ i ∈ range n, f i := by
  induction n with
  | zero => rfl
  | succ n ih => rw [List.range_succ, List.map_append, List.sum_append, ih, sum_range_succ]; simp

/-- The misfit of the linear system for the field is the misfit on the grid. -/
theorem fieldMatrix_misfit (tol : ℝ) (Phi : V3 → V3) (u : Fin D.m2 → ℝ) :
    misfit (eq.fieldMatrix nfp tol D Phi) (eq.fieldData nfp tol) u = fieldMisfit eq nfp (physUnder D Phi u) := by
  rw [misfit_sum]
  obtain ⟨V, hV⟩ : ∃ V, V = eq.validIdx nfp tol := ⟨_, rfl⟩
  have e1 : ∑ r, ((∑ i, eq.fieldMatrix nfp tol D Phi r i * u i) - eq.fieldData nfp tol r) ^ 2 =
      ∑ r ∈ range (V.length * 3), (physUnder D Phi u (eq.pts nfp (V.getD (r / 3) 0)) (Fin.ofNat 3 r) -
        eq.ravel eq.B (V.getD (r / 3) 0) (Fin.ofNat 3 r)) ^ 2 := by
    rw [hV]
    refine Eq.trans ?_ (Fin.sum_univ_eq_sum_range (fun r => (physUnder D Phi u (eq.pts nfp ((eq.validIdx nfp tol).getD (r / 3) 0)) (Fin.ofNat 3 r) -
        eq.ravel eq.B ((eq.validIdx nfp tol).getD (r / 3) 0) (Fin.ofNat 3 r)) ^ 2) _)
    refine sum_congr rfl fun r _ => ?_
    rw [physUnder_sum]
    rfl
  rw [e1, sum_range_mul2]
  have e2 : ∀ j ∈ range V.length, ∑ k ∈ range 3, (physUnder D Phi u (eq.pts nfp (V.getD ((j * 3 + k) / 3) 0)) (Fin.ofNat 3 (j * 3 + k)) -
        eq.ravel eq.B (V.getD ((j * 3 + k) / 3) 0) (Fin.ofNat 3 (j * 3 + k))) ^ 2 =
      (fun n => ∑ c, (physUnder D Phi u (eq.pts nfp n) c - eq.ravel eq.B n c) ^ 2) (V.getD j 0) := by
    intro j _
    beta_reduce
    rw [Finset.sum_range]
    refine sum_congr rfl fun c _ => ?_
    have d : (j * 3 + c.1) / 3 = j := by omega
    have m : Fin.ofNat 3 (j * 3 + c.1) = c := by
      apply Fin.ext
      show (j * 3 + c.1) % 3 = c.1
      omega
    rw [d, m]
  rw [sum_congr rfl e2, getD_sum (fun n => ∑ c, (physUnder D Phi u (eq.pts nfp n) c - eq.ravel eq.B n c) ^ 2) V, hV]
  unfold GvecEq.validIdx
  rw [filter_sum, list_range_sum, sum_grid]
  unfold fieldMisfit
  refine sum_congr rfl fun i _ => sum_congr rfl fun j hj => sum_congr rfl fun k hk => ?_
  rw [mem_range] at hj hk
  rw [pts_flat eq nfp hj hk, ravel_flat eq eq.B hj hk]
  have v : gvecValid tol (gridPoint eq nfp i j k) = true ↔ 1e-3 < eq.rho.getD i 0 ∧ eq.rho.getD i 0 < 1 - 1e-3 := by
    simp [gvecValid, gridPoint, gvecPoint]
  by_cases hv : 1e-3 < eq.rho.getD i 0 ∧ eq.rho.getD i 0 < 1 - 1e-3
  · rw [if_pos hv, if_pos (v.mpr hv)]
  · rw [if_neg hv, if_neg (fun h' => hv (v.mp h'))]

/-! ## The theorems -/

variable (lstsq : Lstsq) (hl : ∀ m n A b, IsLstsq A b (lstsq m n A b))
include hl

omit hl in
/-- **C81** there are solvers as assumed: every least-squares problem has a solution of minimal norm. -/
theorem C81_lstsq_exists : ∃ l : Lstsq, ∀ m n A b, IsLstsq A b (l m n A b) := lstsq_exists

omit hl in
/-- **C81 (finding)** the map returned by `interpolate_map_from_GVEC` can be evaluated only if the sequence has neither a polar axis nor Dirichlet
conditions; with either, the coefficient vector has more entries than `E0` has rows, and every evaluation raises. -/
theorem C81_map_usable_iff (h : Admissible ns ps q types F polar dirichlet D) (x : V3) :
    (eq.interpolateMap nfp lstsq D x).isSome ↔ polar = false ∧ dirichlet = false := by
  rw [← (m0_iff h).1]
  unfold GvecEq.interpolateMap
  split
  · next e => simp [e]
  · next e => simp [e]

/-- **C81** otherwise it is the stellarator map of two discrete functions, which are the best approximations of the data `X1` and `X2` on the
grid. -/
theorem C81_map_best_fit (h : Admissible ns ps q types F false false D) : ∃ c1 c2 : Fin D.m0 → ℝ,
    (∀ x, eq.interpolateMap nfp lstsq D x = some (gvecStellaratorMap (D.form0 c1) (D.form0 c2) nfp x)) ∧
    (∀ c, gridMisfit eq nfp (fun y => D.form0 c1 y 0) eq.X1 ≤ gridMisfit eq nfp (fun y => D.form0 c y 0) eq.X1) ∧
    (∀ c, gridMisfit eq nfp (fun y => D.form0 c2 y 0) eq.X2 ≤ gridMisfit eq nfp (fun y => D.form0 c y 0) eq.X2) := by
  have e : D.m0 = D.S.L0.dims.n := (m0_iff h).1.mpr ⟨rfl, rfl⟩
  have key : ∀ X, ∀ c, gridMisfit eq nfp (fun y => D.form0 (fun i => eq.mapCoefficients nfp lstsq D X (Fin.cast e i)) y 0) X ≤
      gridMisfit eq nfp (fun y => D.form0 c y 0) X := by
    intro X c
    have m := (hl _ _ (eq.mapMatrix nfp D) fun j => eq.ravel X j).min fun l => c (Fin.cast e.symm l)
    rw [mapMatrix_misfit, mapMatrix_misfit] at m
    have a1 : (fun y => D.form0 (fun i => eq.mapCoefficients nfp lstsq D X (Fin.cast e i)) y 0) = fun y =>
        ∑ l : Fin D.S.L0.dims.n, D.S.L0.evaluate (fromV3 y) l 0 * eq.mapCoefficients nfp lstsq D X l := funext fun y => free_form0 h e _ y
    have a2 : (fun y => D.form0 c y 0) = fun y =>
        ∑ l : Fin D.S.L0.dims.n, D.S.L0.evaluate (fromV3 y) l 0 * c (Fin.cast e.symm l) := funext fun y => by
      rw [← free_form0 h e _ y]
      rfl
    rw [a1, a2]
    exact m
  refine ⟨_, _, fun x => ?_, key eq.X1, key eq.X2⟩
  unfold GvecEq.interpolateMap
  rw [dif_pos e]
  rfl

omit hl in
theorem gridMisfit_eq_zero (f : V3 → ℝ) (X : Nat → Nat → Nat → ℝ) : gridMisfit eq nfp f X ≤ 0 ↔
    ∀ i < eq.rho.length, ∀ j < eq.theta.length, ∀ k < eq.zeta.length, f (gridPoint eq nfp i j k) = X i j k := by
  have nn : 0 ≤ gridMisfit eq nfp f X := sum_nonneg fun _ _ => sum_nonneg fun _ _ => sum_nonneg fun _ _ => sq_nonneg _
  constructor
  · intro hz i hi j hj k hk
    have h0 := le_antisymm hz nn
    have h1 := (sum_eq_zero_iff_of_nonneg fun _ _ => sum_nonneg fun _ _ => sum_nonneg fun _ _ => sq_nonneg _).mp h0 i (mem_range.mpr hi)
    have h2 := (sum_eq_zero_iff_of_nonneg fun _ _ => sum_nonneg fun _ _ => sq_nonneg _).mp h1 j (mem_range.mpr hj)
    have h3 := (sum_eq_zero_iff_of_nonneg fun _ _ => sq_nonneg _).mp h2 k (mem_range.mpr hk)
    exact sub_eq_zero.mp (pow_eq_zero_iff (by norm_num) |>.mp h3)
  · intro hz
    refine le_of_eq (sum_eq_zero fun i hi => sum_eq_zero fun j hj => sum_eq_zero fun k hk => ?_)
    rw [hz i (mem_range.mp hi) j (mem_range.mp hj) k (mem_range.mp hk), sub_self]
    norm_num

/-- **C81** if the data come from discrete functions, the interpolation reproduces them: at the grid points always (with the toroidal angle halved,
C64), and everywhere if a discrete function that vanishes on the grid is zero. -/
theorem C81_map_reproduces (h : Admissible ns ps q types F false false D) (hn : nfp ≠ 0) (a b : Fin D.m0 → ℝ)
    (h1 : ∀ i < eq.rho.length, ∀ j < eq.theta.length, ∀ k < eq.zeta.length, D.form0 a (gridPoint eq nfp i j k) 0 = eq.X1 i j k)
    (h2 : ∀ i < eq.rho.length, ∀ j < eq.theta.length, ∀ k < eq.zeta.length, D.form0 b (gridPoint eq nfp i j k) 0 = eq.X2 i j k) :
    (∀ i < eq.rho.length, ∀ j < eq.theta.length, ∀ k < eq.zeta.length,
      eq.interpolateMap nfp lstsq D (gridPoint eq nfp i j k) = some (cylindrical (eq.X1 i j k) (eq.zeta.getD k 0 / 2) (eq.X2 i j k))) ∧
    ((∀ u : Fin D.m0 → ℝ, (∀ i < eq.rho.length, ∀ j < eq.theta.length, ∀ k < eq.zeta.length, D.form0 u (gridPoint eq nfp i j k) 0 = 0) → u = 0) →
      ∀ x, eq.interpolateMap nfp lstsq D x = some (gvecStellaratorMap (D.form0 a) (D.form0 b) nfp x)) := by
  obtain ⟨c1, c2, e, m1, m2⟩ := C81_map_best_fit eq nfp lstsq hl h
  have z1 := (gridMisfit_eq_zero eq nfp _ _).mp ((m1 a).trans ((gridMisfit_eq_zero eq nfp _ _).mpr h1))
  have z2 := (gridMisfit_eq_zero eq nfp _ _).mp ((m2 b).trans ((gridMisfit_eq_zero eq nfp _ _).mpr h2))
  refine ⟨fun i hi j hj k hk => ?_, fun hu x => ?_⟩
  · rw [e]
    congr 1
    exact C64_grid_point hn (D.form0 c1) (D.form0 c2) (z1 i hi j hj k hk) (z2 i hi j hj k hk)
  · have sub : ∀ u v : Fin D.m0 → ℝ, ∀ y, D.form0 (u - v) y 0 = D.form0 u y 0 - D.form0 v y 0 := fun u v y => by
      unfold form0 discreteFunction
      rw [sub_vecMul, sub_dotProduct]
    have e1 : c1 = a := sub_eq_zero.mp (hu _ fun i hi j hj k hk => by rw [sub, z1 i hi j hj k hk, h1 i hi j hj k hk, sub_self])
    have e2 : c2 = b := sub_eq_zero.mp (hu _ fun i hi j hj k hk => by rw [sub, z2 i hi j hj k hk, h2 i hi j hj k hk, sub_self])
    rw [e x, e1, e2]

/-- **C81** for every sequence, polar or not: the physical field of the coefficients returned by `interpolate_B_from_GVEC` is, among all discrete
fields, the one closest to the data at the interpolation points, and the coefficients are the shortest with this property. -/
theorem C81_B_best_fit (D : DeRham) (Phi : V3 → V3) (tol : ℝ) (u : Fin D.m2 → ℝ) :
    fieldMisfit eq nfp (physUnder D Phi (eq.interpolateB nfp lstsq D Phi tol)) ≤ fieldMisfit eq nfp (physUnder D Phi u) ∧
    (fieldMisfit eq nfp (physUnder D Phi u) ≤ fieldMisfit eq nfp (physUnder D Phi (eq.interpolateB nfp lstsq D Phi tol)) →
      eq.interpolateB nfp lstsq D Phi tol ⬝ᵥ eq.interpolateB nfp lstsq D Phi tol ≤ u ⬝ᵥ u) := by
  have m := hl _ _ (eq.fieldMatrix nfp tol D Phi) (eq.fieldData nfp tol)
  have a := m.min u
  have b := m.short u
  rw [fieldMatrix_misfit, fieldMatrix_misfit] at a b
  exact ⟨a, b⟩

/-- **C81** data that come from a discrete field are reproduced at the interpolation points, and the zero field gives zero coefficients. -/
theorem C81_B_reproduces (D : DeRham) (Phi : V3 → V3) (tol : ℝ) (u : Fin D.m2 → ℝ)
    (hB : ∀ i < eq.rho.length, ∀ j < eq.theta.length, ∀ k < eq.zeta.length, physUnder D Phi u (gridPoint eq nfp i j k) = eq.B i j k) :
    (∀ i < eq.rho.length, 1e-3 < eq.rho.getD i 0 → eq.rho.getD i 0 < 1 - 1e-3 → ∀ j < eq.theta.length, ∀ k < eq.zeta.length,
      physUnder D Phi (eq.interpolateB nfp lstsq D Phi tol) (gridPoint eq nfp i j k) = eq.B i j k) ∧
    eq.interpolateB nfp lstsq D Phi tol ⬝ᵥ eq.interpolateB nfp lstsq D Phi tol ≤ u ⬝ᵥ u := by
  have nn : ∀ v, 0 ≤ fieldMisfit eq nfp v := fun v => sum_nonneg fun _ _ => sum_nonneg fun _ _ => sum_nonneg fun _ _ => by
    split
    · exact sum_nonneg fun _ _ => sq_nonneg _
    · exact le_refl _
  have z : fieldMisfit eq nfp (physUnder D Phi u) = 0 := by
    refine sum_eq_zero fun i hi => sum_eq_zero fun j hj => sum_eq_zero fun k hk => ?_
    rw [hB i (mem_range.mp hi) j (mem_range.mp hj) k (mem_range.mp hk)]
    simp
  obtain ⟨a, b⟩ := C81_B_best_fit eq nfp lstsq hl D Phi tol u
  rw [z] at a b
  refine ⟨fun i hi r1 r2 j hj k hk => ?_, b (nn _)⟩
  have h0 := le_antisymm a (nn _)
  have nn1 : ∀ i j k, 0 ≤ (if 1e-3 < eq.rho.getD i 0 ∧ eq.rho.getD i 0 < 1 - 1e-3 then
      ∑ c, (physUnder D Phi (eq.interpolateB nfp lstsq D Phi tol) (gridPoint eq nfp i j k) c - eq.B i j k c) ^ 2 else 0 : ℝ) := fun i j k => by
    split
    · exact sum_nonneg fun _ _ => sq_nonneg _
    · exact le_refl _
  have h1 := (sum_eq_zero_iff_of_nonneg fun _ _ => sum_nonneg fun _ _ => sum_nonneg fun _ _ => nn1 _ _ _).mp h0 i (mem_range.mpr hi)
  have h2 := (sum_eq_zero_iff_of_nonneg fun _ _ => sum_nonneg fun _ _ => nn1 _ _ _).mp h1 j (mem_range.mpr hj)
  have h3 := (sum_eq_zero_iff_of_nonneg fun _ _ => nn1 _ _ _).mp h2 k (mem_range.mpr hk)
  rw [if_pos ⟨r1, r2⟩] at h3
  funext c
  have h4 := (sum_eq_zero_iff_of_nonneg fun _ _ => sq_nonneg _).mp h3 c (mem_univ c)
  exact sub_eq_zero.mp (pow_eq_zero_iff (by norm_num) |>.mp h4)

omit hl in
/-- non-vacuity: a sequence without polar axis and boundary conditions, a solver, and data on a `2 × 1 × 1` grid that come from discrete functions;
with a polar axis the map cannot be evaluated. -/
example : ∃ (D D' : DeRham) (l : Lstsq) (eq : GvecEq),
    eq.size = 2 ∧ eq.interpolateMap 3 l D (gridPoint eq 3 1 0 0) = some (cylindrical (eq.X1 1 0 0) (1 / 2 / 2) (eq.X2 1 0 0)) ∧
    eq.interpolateMap 3 l D' (gridPoint eq 3 1 0 0) = none := by
  obtain ⟨D, h⟩ := Admissible.example false false
  obtain ⟨D', h'⟩ := Admissible.example true false
  obtain ⟨l, hl⟩ := C81_lstsq_exists
  refine ⟨D, D', l, ⟨[1 / 4, 1 / 2], [0], [1 / 2],
    fun i j k => D.form0 (fun n => n.1) (gvecPoint 3 ([1 / 4, 1 / 2].getD i 0) ([0].getD j 0) ([1 / 2].getD k 0)) 0,
    fun i j k => D.form0 (fun n => 1) (gvecPoint 3 ([1 / 4, 1 / 2].getD i 0) ([0].getD j 0) ([1 / 2].getD k 0)) 0, fun _ _ _ _ => 0⟩, rfl, ?_, ?_⟩
  · exact (C81_map_reproduces _ 3 l hl h (by norm_num) (fun n => n.1) (fun n => 1) (fun _ _ _ _ _ _ => rfl) (fun _ _ _ _ _ _ => rfl)).1
      1 (by simp) 0 (by simp) 0 (by simp)
  · rw [← Option.not_isSome_iff_eq_none, C81_map_usable_iff _ 3 l h']
    simp

/-- Cases of `C81_map_best_fit` and `C81_B_best_fit`: the standard case, any data. -/
example (eq : GvecEq) := C81_map_best_fit eq 3 _ C81_lstsq_exists.choose_spec (Case.adm false false)
example (eq : GvecEq) (polar dirichlet : Bool) := C81_B_best_fit eq 3 _ C81_lstsq_exists.choose_spec (Case.D polar dirichlet) Case.map 1e-3

end Mrx.Props
