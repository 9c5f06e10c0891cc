import Verif.Model.Relaxation
import Verif.Spec.Pinv
import Verif.Spec.Lstsq
import Verif.Proofs.Pinv

/-! # Permutations that leave the tables of a sequence alone leave every assembled matrix alone -/

set_option linter.unusedSectionVars false
set_option linter.unusedVariables false

namespace Mrx
open Matrix Spec

/-- Invariance of a matrix under permutations of its rows and columns. -/
def Inv {a b : Nat} (s : Equiv.Perm (Fin a)) (s' : Equiv.Perm (Fin b)) (A : Matrix (Fin a) (Fin b) ℝ) : Prop := A.submatrix s s' = A

namespace Inv
variable {a b c : Nat} {s : Equiv.Perm (Fin a)} {s' : Equiv.Perm (Fin b)} {s'' : Equiv.Perm (Fin c)}

theorem mul {A : Matrix (Fin a) (Fin b) ℝ} {B : Matrix (Fin b) (Fin c) ℝ} (hA : Inv s s' A) (hB : Inv s' s'' B) : Inv s s'' (A * B) := by
  unfold Inv at *
  rw [← Matrix.submatrix_mul_equiv A B s s' s'', hA, hB]

theorem tr {A : Matrix (Fin a) (Fin b) ℝ} (hA : Inv s s' A) : Inv s' s Aᵀ := by
  unfold Inv at *
  rw [← transpose_submatrix, hA]

theorem inv {A : Matrix (Fin a) (Fin a) ℝ} (hA : Inv s s A) : Inv s s A⁻¹ := by
  unfold Inv at *
  rw [← Matrix.inv_submatrix_equiv, hA]

theorem add {A B : Matrix (Fin a) (Fin b) ℝ} (hA : Inv s s' A) (hB : Inv s s' B) : Inv s s' (A + B) := by
  unfold Inv at *
  rw [Matrix.submatrix_add, Pi.add_apply, Pi.add_apply, hA, hB]

theorem neg {A : Matrix (Fin a) (Fin b) ℝ} (hA : Inv s s' A) : Inv s s' (-A) := by
  unfold Inv at *
  rw [Matrix.submatrix_neg, Pi.neg_apply, Pi.neg_apply, hA]

theorem sub {A B : Matrix (Fin a) (Fin b) ℝ} (hA : Inv s s' A) (hB : Inv s s' B) : Inv s s' (A - B) := by
  rw [sub_eq_add_neg]; exact hA.add hB.neg

theorem one : Inv s s (1 : Matrix (Fin a) (Fin a) ℝ) := Matrix.submatrix_one_equiv s

theorem solve {A : Matrix (Fin a) (Fin a) ℝ} {B : Matrix (Fin a) (Fin b) ℝ} (hA : Inv s s A) (hB : Inv s s' B) : Inv s s' (Mrx.solve A B) := hA.inv.mul hB

theorem mulVec {A : Matrix (Fin a) (Fin b) ℝ} (hA : Inv s s' A) (v : Fin b → ℝ) : A *ᵥ (v ∘ s') = (A *ᵥ v) ∘ s := by
  have := Matrix.submatrix_mulVec_equiv A (v ∘ s') s s'
  rw [hA] at this
  rw [this, Function.comp_assoc, Equiv.self_comp_symm, Function.comp_id]

theorem dot {A : Matrix (Fin a) (Fin b) ℝ} (hA : Inv s s' A) (u : Fin a → ℝ) (v : Fin b → ℝ) : (u ∘ s) ⬝ᵥ A *ᵥ (v ∘ s') = u ⬝ᵥ A *ᵥ v := by
  rw [hA.mulVec, comp_equiv_dotProduct_comp_equiv]

theorem pinv {A : Matrix (Fin a) (Fin b) ℝ} {Y : Matrix (Fin b) (Fin a) ℝ} (hA : Inv s s' A) (h : IsPinv A Y) : Inv s' s Y := by
  have e : ∀ {n m l : Nat} (M : Matrix (Fin n) (Fin m) ℝ) (N : Matrix (Fin m) (Fin l) ℝ) (e1 : Equiv.Perm (Fin n)) (e2 : Equiv.Perm (Fin m)) (e3 : Equiv.Perm (Fin l)),
    M.submatrix e1 e2 * N.submatrix e2 e3 = (M * N).submatrix e1 e3 := fun M N e1 e2 e3 => Matrix.submatrix_mul_equiv M N e1 e2 e3
  refine pinv_unique (A := A) ?_ h
  constructor
  · nth_rw 1 [← hA]; nth_rw 2 [← hA]; rw [e, e, h.1, hA]
  · nth_rw 1 [← hA]; rw [e, e, h.2]
  · have : A * Y.submatrix s' s = (A * Y).submatrix s s := by nth_rw 1 [← hA]; rw [e]
    rw [this, transpose_submatrix, h.3]
  · have : Y.submatrix s' s * A = (Y * A).submatrix s' s' := by nth_rw 1 [← hA]; rw [e]
    rw [this, transpose_submatrix, h.4]

end Inv

/-! ## Least squares -/

theorem lstsq_unique {m n : Nat} {A : Matrix (Fin m) (Fin n) ℝ} {b : Fin m → ℝ} {x y : Fin n → ℝ} (hx : IsLstsq A b x) (hy : IsLstsq A b y) : x = y := by
  have par : ∀ {k : Nat} (u v : Fin k → ℝ), (u + v) ⬝ᵥ (u + v) + (u - v) ⬝ᵥ (u - v) = 2 * (u ⬝ᵥ u) + 2 * (v ⬝ᵥ v) := fun u v => by
    simp only [add_dotProduct, dotProduct_add, sub_dotProduct, dotProduct_sub]; ring
  have nn : ∀ {k : Nat} (u : Fin k → ℝ), 0 ≤ u ⬝ᵥ u := fun u => Finset.sum_nonneg fun i _ => mul_self_nonneg (u i)
  have half : ∀ {k : Nat} (u v : Fin k → ℝ), ((1 / 2 : ℝ) • (u + v)) ⬝ᵥ ((1 / 2 : ℝ) • (u + v)) = (u ⬝ᵥ u + v ⬝ᵥ v) / 2 - (u - v) ⬝ᵥ (u - v) / 4 := fun u v => by
    have := par u v
    rw [smul_dotProduct, dotProduct_smul, smul_eq_mul, smul_eq_mul]
    linarith
  obtain ⟨z, hz⟩ : ∃ z, z = (1 / 2 : ℝ) • (x + y) := ⟨_, rfl⟩
  have ez : A *ᵥ z - b = (1 / 2 : ℝ) • ((A *ᵥ x - b) + (A *ᵥ y - b)) := by
    rw [hz, mulVec_smul, mulVec_add]
    funext i
    simp only [Pi.sub_apply, Pi.smul_apply, Pi.add_apply, smul_eq_mul]
    ring
  have mx := hx.min y
  have my := hy.min x
  have mz : misfit A b z ≤ misfit A b x := by
    unfold misfit at mx my ⊢
    rw [ez, half]
    have := nn (A *ᵥ x - b - (A *ᵥ y - b))
    linarith
  have sx := hx.short z mz
  have s1 := hx.short y my
  have s2 := hy.short x mx
  rw [hz, half] at sx
  have zero : (x - y) ⬝ᵥ (x - y) = 0 := le_antisymm (by linarith) (nn _)
  exact sub_eq_zero.1 (dotProduct_self_eq_zero.1 zero)

theorem lstsq_shift {n : Nat} {A : Matrix (Fin n) (Fin n) ℝ} {b x : Fin n → ℝ} (s : Equiv.Perm (Fin n)) (h : IsLstsq A b x) : IsLstsq (A.submatrix s s) (b ∘ s) (x ∘ s) := by
  have e : ∀ y : Fin n → ℝ, misfit (A.submatrix s s) (b ∘ s) y = misfit A b (y ∘ s.symm) := fun y => by
    unfold misfit
    rw [Matrix.submatrix_mulVec_equiv]
    have : (A *ᵥ (y ∘ s.symm)) ∘ s - b ∘ s = (A *ᵥ (y ∘ s.symm) - b) ∘ s := rfl
    rw [this, comp_equiv_dotProduct_comp_equiv]
  have ex : (x ∘ s) ∘ s.symm = x := by rw [Function.comp_assoc, Equiv.self_comp_symm, Function.comp_id]
  refine ⟨fun y => by rw [e, e, ex]; exact h.min _, fun y hy => ?_⟩
  rw [e, e, ex] at hy
  rw [comp_equiv_dotProduct_comp_equiv, ← comp_equiv_dotProduct_comp_equiv (e := s.symm) y y]
  exact h.short _ hy

/-! ## Sequences -/

/-- Permutations of the coefficients and of the quadrature points that leave the tables alone. -/
structure DeRham.Sym (D : DeRham) where
  s0 : Equiv.Perm (Fin D.m0)
  s1 : Equiv.Perm (Fin D.m1)
  s2 : Equiv.Perm (Fin D.m2)
  s3 : Equiv.Perm (Fin D.m3)
  f0 : Equiv.Perm (Fin D.S.L0.dims.n)
  f1 : Equiv.Perm (Fin D.S.L1.dims.n)
  f2 : Equiv.Perm (Fin D.S.L2.dims.n)
  f3 : Equiv.Perm (Fin D.S.L3.dims.n)
  t : Equiv.Perm (Fin D.nq)
  E0 : Inv s0 f0 D.E0
  E1 : Inv s1 f1 D.E1
  E2 : Inv s2 f2 D.E2
  E3 : Inv s3 f3 D.E3
  g0 : ∀ (i : Fin D.S.L0.dims.n) (j : Fin D.nq) (k : Nat), D.S.getLambda0 (f0 i) (t j) k = D.S.getLambda0 i j k
  g1 : ∀ (i : Fin D.S.L1.dims.n) (j : Fin D.nq) (k : Nat), D.S.getLambda1 (f1 i) (t j) k = D.S.getLambda1 i j k
  g2 : ∀ (i : Fin D.S.L2.dims.n) (j : Fin D.nq) (k : Nat), D.S.getLambda2 (f2 i) (t j) k = D.S.getLambda2 i j k
  g3 : ∀ (i : Fin D.S.L3.dims.n) (j : Fin D.nq) (k : Nat), D.S.getLambda3 (f3 i) (t j) k = D.S.getLambda3 i j k
  dg0 : ∀ (i : Fin D.S.L0.dims.n) (j : Fin D.nq) (k : Nat), D.S.getDLambda0 (f0 i) (t j) k = D.S.getDLambda0 i j k
  dg1 : ∀ (i : Fin D.S.L1.dims.n) (j : Fin D.nq) (k : Nat), D.S.getDLambda1 (f1 i) (t j) k = D.S.getDLambda1 i j k
  dg2 : ∀ (i : Fin D.S.L2.dims.n) (j : Fin D.nq) (k : Nat), D.S.getDLambda2 (f2 i) (t j) k = D.S.getDLambda2 i j k
  w : ∀ j : Fin D.nq, D.w (t j) = D.w j
  J : ∀ j : Fin D.nq, D.g.J (t j) = D.g.J j
  G : ∀ j : Fin D.nq, D.g.G (t j) = D.g.G j
  Ginv : ∀ j : Fin D.nq, D.g.Ginv (t j) = D.g.Ginv j

theorem assemble_inv {g g' : Getter} {nq d n n' : Nat} {W : Nat → Matrix (Fin d) (Fin d) ℝ} {f : Equiv.Perm (Fin n)} {f' : Equiv.Perm (Fin n')} {t : Equiv.Perm (Fin nq)}
    (hg : ∀ (i : Fin n) (j : Fin nq) (k : Nat), g (f i) (t j) k = g i j k) (hg' : ∀ (i : Fin n') (j : Fin nq) (k : Nat), g' (f' i) (t j) k = g' i j k)
    (hW : ∀ j : Fin nq, W (t j) = W j) : Inv f f' (assemble g g' nq d W n n') := by
  unfold Inv
  ext a b
  simp only [Matrix.submatrix_apply, assemble, Finset.sum_range]
  rw [← Equiv.sum_comp t]
  simp only [hg, hg', hW]

theorem integrate_inv {g : Getter} {nq d n : Nat} {w w' : Nat → Fin d → ℝ} {f : Equiv.Perm (Fin n)} {t : Equiv.Perm (Fin nq)}
    (hg : ∀ (i : Fin n) (j : Fin nq) (k : Nat), g (f i) (t j) k = g i j k) (hw : ∀ j : Fin nq, w (t j) = w' j) :
    integrateAgainst g nq d w n ∘ f = integrateAgainst g nq d w' n := by
  funext i
  simp only [Function.comp, integrateAgainst, Finset.sum_range]
  rw [← Equiv.sum_comp t]
  simp only [hg, hw]

namespace DeRham.Sym
variable {D : DeRham} (σ : D.Sym)

theorem W0 (j : Fin D.nq) : D.W0 (σ.t j) = D.W0 j := by unfold DeRham.W0; rw [σ.J, σ.w]
theorem W1 (j : Fin D.nq) : D.W1 (σ.t j) = D.W1 j := by unfold DeRham.W1; rw [σ.J, σ.w, σ.Ginv]
theorem W2 (j : Fin D.nq) : D.W2 (σ.t j) = D.W2 j := by unfold DeRham.W2; rw [σ.J, σ.w, σ.G]
theorem W3 (j : Fin D.nq) : D.W3 (σ.t j) = D.W3 j := by unfold DeRham.W3; rw [σ.J, σ.w]

theorem M0 : Inv σ.s0 σ.s0 D.M0 := (σ.E0.mul (assemble_inv σ.g0 σ.g0 σ.W0)).mul σ.E0.tr
theorem M1 : Inv σ.s1 σ.s1 D.M1 := (σ.E1.mul (assemble_inv σ.g1 σ.g1 σ.W1)).mul σ.E1.tr
theorem M2 : Inv σ.s2 σ.s2 D.M2 := (σ.E2.mul (assemble_inv σ.g2 σ.g2 σ.W2)).mul σ.E2.tr
theorem M3 : Inv σ.s3 σ.s3 D.M3 := (σ.E3.mul (assemble_inv σ.g3 σ.g3 σ.W3)).mul σ.E3.tr
theorem D0 : Inv σ.s1 σ.s0 D.D0 := (σ.E1.mul (assemble_inv σ.g1 σ.dg0 σ.W1)).mul σ.E0.tr
theorem D1 : Inv σ.s2 σ.s1 D.D1 := (σ.E2.mul (assemble_inv σ.g2 σ.dg1 σ.W2)).mul σ.E1.tr
theorem D2 : Inv σ.s3 σ.s2 D.D2 := (σ.E3.mul (assemble_inv σ.g3 σ.dg2 σ.W3)).mul σ.E2.tr
theorem strongGrad : Inv σ.s1 σ.s0 D.strongGrad := σ.M1.solve σ.D0
theorem strongCurl : Inv σ.s2 σ.s1 D.strongCurl := σ.M2.solve σ.D1
theorem strongDiv : Inv σ.s3 σ.s2 D.strongDiv := σ.M3.solve σ.D2
theorem weakDiv : Inv σ.s0 σ.s1 D.weakDiv := (σ.M0.tr.solve σ.D0.tr).neg
theorem weakCurl : Inv σ.s1 σ.s2 D.weakCurl := σ.M1.tr.solve σ.D1.tr
theorem weakGrad : Inv σ.s2 σ.s3 D.weakGrad := (σ.M2.tr.solve σ.D2.tr).neg
theorem dd0 : Inv σ.s0 σ.s0 D.dd0 := σ.M0.solve ((σ.E0.mul (assemble_inv σ.dg0 σ.dg0 σ.W1)).mul σ.E0.tr)
theorem dd1 : Inv σ.s1 σ.s1 D.dd1 := (σ.M1.solve ((σ.E1.mul (assemble_inv σ.dg1 σ.dg1 σ.W2)).mul σ.E1.tr)).sub (σ.strongGrad.mul σ.weakDiv)
theorem dd2 : Inv σ.s2 σ.s2 D.dd2 := (σ.M2.solve ((σ.E2.mul (assemble_inv σ.dg2 σ.dg2 σ.W3)).mul σ.E2.tr)).add (σ.strongCurl.mul σ.weakCurl)
theorem dd3 : Inv σ.s3 σ.s3 D.dd3 := σ.strongDiv.neg.mul σ.weakGrad
theorem M12 : Inv σ.s1 σ.s2 D.M12 := (σ.E1.mul (assemble_inv σ.g1 σ.g2 fun j => by rw [σ.w])).mul σ.E2.tr
theorem P12 : Inv σ.s1 σ.s2 D.P12 := σ.M1.solve σ.M12
theorem P03 : Inv σ.s0 σ.s3 D.P03 := σ.M0.solve ((σ.E0.mul (assemble_inv σ.g0 σ.g3 fun j => by rw [σ.w])).mul σ.E3.tr)

theorem leray {X : Matrix (Fin D.m3) (Fin D.m3) ℝ} (hX : IsPinv D.dd3 X) : Inv σ.s2 σ.s2 (D.leray X) :=
  Inv.one.add ((σ.weakGrad.mul (σ.dd3.pinv hX)).mul σ.strongDiv)

/-! ## Cross products -/

/-- The permutation of the coefficients of 1-forms or 2-forms. -/
def s : (a : Deg) → Equiv.Perm (Fin (D.mdim a))
  | .one => σ.s1
  | .two => σ.s2

/-- The permutation of the unextracted coefficients of 1-forms or 2-forms. -/
def f : (a : Deg) → Equiv.Perm (Fin (D.ldim a))
  | .one => σ.f1
  | .two => σ.f2

theorem E : (a : Deg) → Inv (σ.s a) (σ.f a) (D.E a)
  | .one => σ.E1
  | .two => σ.E2

theorem getter : (a : Deg) → ∀ (i : Fin (D.ldim a)) (j : Fin D.nq) (k : Nat), D.getter a (σ.f a i) (σ.t j) k = D.getter a i j k
  | .one => σ.g1
  | .two => σ.g2

theorem evaluate_inv {g : Getter} {n nq : Nat} {f : Equiv.Perm (Fin n)} {t : Equiv.Perm (Fin nq)} (hg : ∀ (i : Fin n) (j : Fin nq) (k : Nat), g (f i) (t j) k = g i j k)
    (v : Fin n → ℝ) (j : Fin nq) (k : Nat) : evaluateAtXq g (v ∘ f) j k = evaluateAtXq g v (t j) k := by
  unfold evaluateAtXq
  rw [← Equiv.sum_comp f (fun i => g i (t j) k * v i)]
  simp only [hg, Function.comp]

theorem fieldAt (a : Deg) (v : Fin (D.mdim a) → ℝ) (j : Fin D.nq) : D.fieldAt a (v ∘ σ.s a) j = D.fieldAt a v (σ.t j) := by
  funext k
  unfold DeRham.fieldAt
  rw [(σ.E a).tr.mulVec, evaluate_inv (σ.getter a)]

theorem crossWeight (n m k : Deg) (j : Fin D.nq) (w u : V3) : D.crossWeight n m k (σ.t j) w u = D.crossWeight n m k j w u := by
  cases n <;> cases m <;> cases k <;> simp only [DeRham.crossWeight, σ.J, σ.G, σ.Ginv, σ.w]

theorem crossVec (n m k : Deg) (w : Fin (D.mdim m) → ℝ) (u : Fin (D.mdim k) → ℝ) : D.crossVec n m k (w ∘ σ.s m) (u ∘ σ.s k) = D.crossVec n m k w u ∘ σ.s n := by
  unfold DeRham.crossVec DeRham.crossProductOf
  cases D.crossWeight n m k 0 0 0 with
  | error e => rfl
  | ok v =>
    simp only []
    rw [← (σ.E n).mulVec]
    congr 1
    refine (integrate_inv (σ.getter n) fun j => ?_).symm
    simp only [σ.fieldAt, σ.crossWeight]

theorem P1x1to2 (v w : Fin D.m1 → ℝ) : D.P1x1to2 (v ∘ σ.s1) (w ∘ σ.s1) = D.P1x1to2 v w ∘ σ.s2 := σ.crossVec .two .one .one v w
theorem P2x1to1 (u : Fin D.m2 → ℝ) (w : Fin D.m1 → ℝ) : D.P2x1to1 (u ∘ σ.s2) (w ∘ σ.s1) = D.P2x1to1 u w ∘ σ.s1 := σ.crossVec .one .two .one u w

/-! ## Diagnostics -/

theorem norm2 (B : Fin D.m2 → ℝ) : D.norm2 (B ∘ σ.s2) = D.norm2 B := by unfold DeRham.norm2; rw [σ.M2.dot]
theorem energy (B : Fin D.m2 → ℝ) : D.energy (B ∘ σ.s2) = D.energy B := by unfold DeRham.energy; rw [σ.M2.dot]

theorem vectorPotential (B : Fin D.m2 → ℝ) : D.vectorPotential (B ∘ σ.s2) = D.vectorPotential B ∘ σ.s1 := by
  unfold DeRham.vectorPotential
  rw [σ.weakCurl.mulVec, σ.dd1.inv.mulVec]

theorem harmonicComponent (B : Fin D.m2 → ℝ) : D.harmonicComponent (B ∘ σ.s2) = D.harmonicComponent B ∘ σ.s2 := by
  unfold DeRham.harmonicComponent
  rw [σ.vectorPotential, σ.strongCurl.mulVec]
  rfl

theorem helicity (B : Fin D.m2 → ℝ) : D.helicity (B ∘ σ.s2) = D.helicity B := by
  unfold DeRham.helicity
  rw [σ.vectorPotential, σ.harmonicComponent]
  have : B ∘ σ.s2 + D.harmonicComponent B ∘ σ.s2 = (B + D.harmonicComponent B) ∘ σ.s2 := rfl
  rw [this, σ.P12.mulVec, σ.M1.dot]

theorem divergenceNorm (B : Fin D.m2 → ℝ) : D.divergenceNorm (B ∘ σ.s2) = D.divergenceNorm B := by
  unfold DeRham.divergenceNorm
  rw [σ.strongDiv.mulVec, σ.M3.dot]

/-! ## The Hessian -/

theorem deltaB (B u : Fin D.m2 → ℝ) : D.deltaB (B ∘ σ.s2) (u ∘ σ.s2) = D.deltaB B u ∘ σ.s2 := by
  unfold DeRham.deltaB
  rw [σ.P12.mulVec, σ.P2x1to1, σ.M1.inv.mulVec, σ.strongCurl.mulVec]

theorem uxJ (B u : Fin D.m2 → ℝ) : D.uxJ (B ∘ σ.s2) (u ∘ σ.s2) = D.uxJ B u ∘ σ.s1 := by
  unfold DeRham.uxJ
  rw [σ.weakCurl.mulVec, σ.P2x1to1, σ.M1.inv.mulVec]

theorem columns_shift {n m : Nat} {f f' : (Fin n → ℝ) → Fin m → ℝ} {s : Equiv.Perm (Fin n)} {s' : Equiv.Perm (Fin m)} (h : ∀ u, f' (u ∘ s) = f u ∘ s') :
    columns f' = (columns f).submatrix s' s := by
  ext r i
  simp only [columns, Matrix.submatrix_apply]
  have : (Pi.single i 1 : Fin n → ℝ) = (Pi.single (s i) 1 : Fin n → ℝ) ∘ s := by
    funext k
    simp only [Function.comp, Pi.single_apply, s.injective.eq_iff]
  rw [this, h]
  rfl

theorem hess_shift {n m : Nat} {s : Equiv.Perm (Fin n)} {s' : Equiv.Perm (Fin m)} (A M : Matrix (Fin n) (Fin n) ℝ) (L : Matrix (Fin m) (Fin n) ℝ) (P : Matrix (Fin m) (Fin n) ℝ)
    (hM : Inv s s M) (hP : Inv s' s P) : (A.submatrix s s)ᵀ * M * A.submatrix s s + (L.submatrix s' s)ᵀ * P * M * A.submatrix s s = (Aᵀ * M * A + Lᵀ * P * M * A).submatrix s s := by
  have e : ∀ {n m l : Nat} (M : Matrix (Fin n) (Fin m) ℝ) (N : Matrix (Fin m) (Fin l) ℝ) (e1 : Equiv.Perm (Fin n)) (e2 : Equiv.Perm (Fin m)) (e3 : Equiv.Perm (Fin l)),
    M.submatrix e1 e2 * N.submatrix e2 e3 = (M * N).submatrix e1 e3 := fun M N e1 e2 e3 => Matrix.submatrix_mul_equiv M N e1 e2 e3
  unfold Inv at hM hP
  conv_lhs => rw [← hM, ← hP]
  rw [transpose_submatrix, transpose_submatrix, e, e, e, e, e]
  rfl

theorem hessian (B : Fin D.m2 → ℝ) : D.hessian (B ∘ σ.s2) = (D.hessian B).submatrix σ.s2 σ.s2 := by
  have e := hess_shift (columns (D.deltaB B)) D.M2 (columns (D.uxJ B)) D.M12 σ.M2 σ.M12
  have c1 : columns (D.deltaB (B ∘ σ.s2)) = (columns (D.deltaB B)).submatrix σ.s2 σ.s2 := columns_shift fun u => σ.deltaB B u
  have c2 : columns (D.uxJ (B ∘ σ.s2)) = (columns (D.uxJ B)).submatrix σ.s1 σ.s2 := columns_shift fun u => σ.uxJ B u
  unfold DeRham.hessian
  simp only []
  rw [c1, c2, e]
  generalize (columns (D.deltaB B))ᵀ * D.M2 * columns (D.deltaB B) + (columns (D.uxJ B))ᵀ * D.M12 * D.M2 * columns (D.deltaB B) = h
  rw [transpose_submatrix]
  rfl

end DeRham.Sym
end Mrx
