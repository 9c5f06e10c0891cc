import Verif.Proofs.FieldSums
import Verif.Proofs.Collocation
import Verif.Proofs.Linear
import Verif.Props.Geometry
import Verif.Props.PolarRank
import Verif.Props.FormsDeriv

/-! # Regular sequences: positive weights, unisolvence, definite metrics -/

set_option linter.unusedSectionVars false

namespace Mrx
open Finset Jax Spec Matrix Quad Props

theorem T3_unisolvent {a b c : Nat} {C : Nat → Nat → Nat → ℝ} {f g h : ℝ → Nat → ℝ} {xs ys zs : List ℝ}
    (hf : Unisolvent a f xs) (hg : Unisolvent b g ys) (hh : Unisolvent c h zs)
    (h0 : ∀ x ∈ xs, ∀ y ∈ ys, ∀ z ∈ zs, T3 a b c C (f x) (g y) (h z) = 0) :
    ∀ i < a, ∀ j < b, ∀ l < c, C i j l = 0 := by
  intro i hi j hj l hl
  refine hh (fun l => C i j l) (fun z hz => ?_) l hl
  refine hg (fun j => ∑ l ∈ range c, C i j l * h z l) (fun y hy => ?_) j hj
  refine hf (fun i => ∑ j ∈ range b, (∑ l ∈ range c, C i j l * h z l) * g y j) (fun x hx => ?_) i hi
  rw [← h0 x hx y hy z hz]
  unfold T3
  refine Finset.sum_congr rfl fun i _ => ?_
  rw [Finset.sum_mul]
  refine Finset.sum_congr rfl fun j _ => ?_
  rw [Finset.sum_mul, Finset.sum_mul]
  exact Finset.sum_congr rfl fun l _ => by ring

namespace Seq

/-- What is needed of the quadrature rule of a sequence. -/
structure QuadOK (S : Seq ℝ) : Prop where
  wf : S.WF
  tensor : S.IsTensor
  len : S.Q.w.length = S.nq
  pos : ∀ w ∈ S.Q.w, 0 < w
  r : Unisolvent S.L0.dims.nr (fun x i => S.L0.Λ0.evaluate x i) S.Q.xx
  t : Unisolvent S.L0.dims.nt (fun x i => S.L0.Λ1.evaluate x i) S.Q.xy
  z : Unisolvent S.L0.dims.nz (fun x i => S.L0.Λ2.evaluate x i) S.Q.xz
  dr : Unisolvent S.L0.dims.dr (fun x i => S.L0.dΛ0.evaluate x i) S.Q.xx
  dt : Unisolvent S.L0.dims.dt (fun x i => S.L0.dΛ1.evaluate x i) S.Q.xy
  dz : Unisolvent S.L0.dims.dz (fun x i => S.L0.dΛ2.evaluate x i) S.Q.xz

variable {S : Seq ℝ} (hq : S.QuadOK)
include hq

theorem T3_zero {a b c : Nat} {V : Nat → Nat → Nat → ℝ} {dR dT dZ : Bool}
    (ha : a = if dR then S.L0.dims.dr else S.L0.dims.nr) (hb : b = if dT then S.L0.dims.dt else S.L0.dims.nt)
    (hc : c = if dZ then S.L0.dims.dz else S.L0.dims.nz)
    (h0 : ∀ j < S.nq, T3 a b c V (S.tR dR j) (S.tT dT j) (S.tZ dZ j) = 0) :
    ∀ i < a, ∀ j < b, ∀ l < c, V i j l = 0 := by
  have hw := hq.wf
  have ur : Unisolvent a (fun x i => if dR then S.L0.dΛ0.evaluate x i else S.L0.Λ0.evaluate x i) S.Q.xx := by
    rw [ha]; cases dR
    · exact hq.r
    · exact hq.dr
  have ut : Unisolvent b (fun x i => if dT then S.L0.dΛ1.evaluate x i else S.L0.Λ1.evaluate x i) S.Q.xy := by
    rw [hb]; cases dT
    · exact hq.t
    · exact hq.dt
  have uz : Unisolvent c (fun x i => if dZ then S.L0.dΛ2.evaluate x i else S.L0.Λ2.evaluate x i) S.Q.xz := by
    rw [hc]; cases dZ
    · exact hq.z
    · exact hq.dz
  refine T3_unisolvent ur ut uz fun x hx y hy z hz => ?_
  obtain ⟨jx, hjx, rfl⟩ := List.mem_iff_getElem.mp hx
  obtain ⟨jy, hjy, rfl⟩ := List.mem_iff_getElem.mp hy
  obtain ⟨jz, hjz, rfl⟩ := List.mem_iff_getElem.mp hz
  have hlt : (jy * S.Q.xx.length + jx) * S.Q.xz.length + jz < S.nq := by
    unfold nq
    have h1 : jy * S.Q.xx.length + jx + 1 ≤ S.Q.xy.length * S.Q.xx.length := by
      have := Nat.mul_le_mul_right S.Q.xx.length (show jy + 1 ≤ S.Q.xy.length by omega)
      rw [Nat.add_mul, Nat.one_mul] at this; omega
    have h2 := Nat.mul_le_mul_right S.Q.xz.length h1
    rw [Nat.add_mul, Nat.one_mul] at h2
    omega
  have hu : S.unravelQuad ((jy * S.Q.xx.length + jx) * S.Q.xz.length + jz) = (jx, jy, jz) := by
    unfold unravelQuad
    rw [unravelIndex3_flat hjy hjx hjz]
  have e := h0 _ hlt
  unfold T3 tR tT tZ at e
  rw [hu] at e
  refine Eq.trans ?_ e
  unfold T3
  refine Finset.sum_congr rfl fun i hi => Finset.sum_congr rfl fun j hj => Finset.sum_congr rfl fun l hl => ?_
  have hi := mem_range.mp hi
  have hj := mem_range.mp hj
  have hl := mem_range.mp hl
  rw [ha] at hi; rw [hb] at hj; rw [hc] at hl
  have gd : ∀ (l : List ℝ) (i : Nat) (h : i < l.length), l.getD i 0 = l[i] := by
    intro l i h; rw [List.getD_eq_getElem?_getD, List.getElem?_eq_getElem h]; rfl
  congr 1
  congr 1
  · congr 1
    · cases dR
      · simp only [Bool.false_eq_true, if_false] at hi ⊢
        rw [lamR_get hw hi hjx, gd _ _ hjx]
      · simp only [if_true] at hi ⊢
        rw [dlamR_get hw hi hjx, gd _ _ hjx]
    · cases dT
      · simp only [Bool.false_eq_true, if_false] at hj ⊢
        rw [lamT_get hw hj hjy, gd _ _ hjy]
      · simp only [if_true] at hj ⊢
        rw [dlamT_get hw hj hjy, gd _ _ hjy]
  · cases dZ
    · simp only [Bool.false_eq_true, if_false] at hl ⊢
      rw [lamZ_get hw hl hjz, gd _ _ hjz]
    · simp only [if_true] at hl ⊢
      rw [dlamZ_get hw hl hjz, gd _ _ hjz]

omit hq in
theorem vec_zero_of_coef {d : Dims} (hk : Dims.validDegree d.k) (v : Fin d.n → ℝ)
    (h : ∀ c i j l, d.InRange c i j l → coef d v c i j l = 0) : v = 0 := by
  funext a
  obtain ⟨h1, h2⟩ := d.unravelIndex_inRange hk a.2
  have := h _ _ _ _ h1
  rw [PolarOp.coef_eq hk h1] at this
  simp only [h2] at this
  exact this

theorem zero0 (v : Fin S.L0.dims.n → ℝ) (h : ∀ j < S.nq, ∀ k < 1, evaluateAtXq S.getLambda0 v j k = 0) : v = 0 := by
  have hw := hq.wf
  refine vec_zero_of_coef hw.f0.k v fun c i j l hin => ?_
  have hc := hin.comp_lt
  simp [Dims.shape, hw.k0] at hc
  subst hc
  simp [Dims.InRange, Dims.cshape, Dims.shape, hw.k0] at hin
  refine T3_zero hq (dR := false) (dT := false) (dZ := false) rfl rfl rfl (fun j hj => ?_) i hin.1 j hin.2.1 l hin.2.2
  rw [← h j hj 0 (by omega), field0 hw]; rfl

theorem zero3 (v : Fin S.L3.dims.n → ℝ) (h : ∀ j < S.nq, ∀ k < 1, evaluateAtXq S.getLambda3 v j k = 0) : v = 0 := by
  have hw := hq.wf
  refine vec_zero_of_coef hw.f3.k v fun c i j l hin => ?_
  have hc := hin.comp_lt
  have hd := (nr_eq hw).2.2
  simp [Dims.shape, hd] at hc
  subst hc
  simp [Dims.InRange, Dims.cshape, Dims.shape, hd] at hin
  refine T3_zero hq (dR := true) (dT := true) (dZ := true) rfl rfl rfl (fun j hj => ?_) i hin.1 j hin.2.1 l hin.2.2
  rw [← h j hj 0 (by omega), field3 hw]; rfl

theorem zero1 (v : Fin S.L1.dims.n → ℝ) (h : ∀ j < S.nq, ∀ k < 3, evaluateAtXq S.getLambda1 v j k = 0) : v = 0 := by
  have hw := hq.wf
  refine vec_zero_of_coef hw.f1.k v fun c i j l hin => ?_
  have hc := hin.comp_lt
  have hd := (nr_eq hw).1
  simp [Dims.shape, hd] at hc
  have hz : ∀ j < S.nq, S.compVal S.L1.dims (coef S.L1.dims v c) c j = 0 := fun j hj => by
    rw [← field1 hw v j c hc]; exact h j hj c hc
  unfold compVal at hz
  refine T3_zero hq ?_ ?_ ?_ hz i hin.1 j hin.2.1 l hin.2.2 <;>
    rw [hd] <;> interval_cases c <;> simp [Dims.cshape, Dims.shape, isDeriv]

theorem zero2 (v : Fin S.L2.dims.n → ℝ) (h : ∀ j < S.nq, ∀ k < 3, evaluateAtXq S.getLambda2 v j k = 0) : v = 0 := by
  have hw := hq.wf
  refine vec_zero_of_coef hw.f2.k v fun c i j l hin => ?_
  have hc := hin.comp_lt
  have hd := (nr_eq hw).2.1
  simp [Dims.shape, hd] at hc
  have hz : ∀ j < S.nq, S.compVal S.L2.dims (coef S.L2.dims v c) c j = 0 := fun j hj => by
    rw [← field2 hw v j c hc]; exact h j hj c hc
  unfold compVal at hz
  refine T3_zero hq ?_ ?_ ?_ hz i hin.1 j hin.2.1 l hin.2.2 <;>
    rw [hd] <;> interval_cases c <;> simp [Dims.cshape, Dims.shape, isDeriv]

end Seq

/-! ## From the constructor -/

/-- One direction of an admissible sequence: a clamped or periodic spline of degree `p ≥ 1`, not too fine, with
enough quadrature points per element (`p + 1`, or just `p` when `p ≥ 2` and there are two elements), or the constant basis
with one function. -/
def DirOK (n p q : Nat) (ty : String) : Prop :=
  (ty = "clamped" ∧ 1 ≤ p ∧ p < n ∧ n - p ≤ 99900 ∧ (p + 1 ≤ q ∨ (q = p ∧ 2 ≤ p ∧ 2 ≤ n - p))) ∨
  (ty = "periodic" ∧ 1 ≤ p ∧ (p < n ∨ p = 1) ∧ 1 ≤ n ∧ n ≤ 49975 ∧ (p + 1 ≤ q ∨ (q = p ∧ 2 ≤ p))) ∨ (ty = "constant" ∧ n = 1 ∧ p ≤ 1)

theorem DirOK.facts {n p q : Nat} {ty : String} (h : DirOK n p q ty) (hq : q ≤ 10) {s : SplineBasis ℝ} {d : DerivativeSpline ℝ}
    (hs : SplineBasis.mk? n p ty = .ok s) (hd : DerivativeSpline.mk? s = .ok d) {xw : List ℝ × List ℝ}
    (hsel : selectQuadrature s q = .ok xw) :
    Unisolvent n (fun x i => s.evaluate x i) xw.1 ∧ Unisolvent (Form.dsize n ty) (fun x i => d.evaluate x i) xw.1 ∧
      xw.1.length = xw.2.length ∧ ∀ w ∈ xw.2, 0 < w := by
  rcases h with ⟨rfl, a, b, c, e⟩ | ⟨rfl, a, b, c, e, f⟩ | ⟨rfl, rfl, _⟩
  · obtain ⟨xs, ws, e1, e2, l1, l2, _, hp, _⟩ := C11_select_rule n p a "clamped" (n - p) (Or.inl ⟨rfl, b, rfl⟩) s hs q (by omega) hq
    rw [hsel] at e1
    obtain rfl := Except.ok.inj e1
    exact ⟨unisolvent_clamped a b c e hq hs hsel, by simpa [Form.dsize] using unisolvent_clamped_deriv a b c (by omega) hq hs hd hsel,
      l1.trans l2.symm, hp⟩
  · obtain ⟨xs, ws, e1, e2, l1, l2, _, hp, _⟩ := C11_select_rule n p a "periodic" n (Or.inr ⟨rfl, c, b, rfl⟩) s hs q (by omega) hq
    rw [hsel] at e1
    obtain rfl := Except.ok.inj e1
    exact ⟨unisolvent_periodic a c b e f hq hs hsel, by simpa [Form.dsize] using unisolvent_periodic_deriv a c b e (by omega) hq hs hd hsel,
      l1.trans l2.symm, hp⟩
  · have hty : s.type = "constant" := (Form.spline_mk?_ok hs).2.2
    have hdt : d.type = "constant" := by
      unfold DerivativeSpline.mk? at hd
      rw [if_neg (by simp [hty])] at hd
      split at hd
      · cases hd
      · cases hd; exact hty
    have e1 : ∀ y i, s.evaluate y i = 1 := by
      intro y i; unfold SplineBasis.evaluate; simp [hty]
    have e2 : ∀ y i, d.evaluate y i = 1 := by
      intro y i; unfold DerivativeSpline.evaluate; simp [hdt]
    have hx : xw.1.length = 1 ∧ xw.2.length = 1 ∧ ∀ w ∈ xw.2, 0 < w := by
      have := hsel
      unfold selectQuadrature at this
      rw [hty] at this
      simp only [show ¬ ("constant" = "clamped") by decide, show ¬ ("constant" = "periodic") by decide,
        show ¬ ("constant" = "fourier") by decide, if_false, spectralQuad, show (1 ≤ 1 ∧ 1 ≤ 10) by decide, and_self, if_true] at this
      obtain rfl := Except.ok.inj this
      obtain ⟨l1, l2, _, hw, _⟩ := table_nodes 1 (List.mem_range.mpr (by omega)) (by omega)
      refine ⟨by simp [l1], by simp [l2], fun w hw' => ?_⟩
      obtain ⟨a, ha, rfl⟩ := List.mem_map.mp hw'
      have := hw a ha
      have : (0 : ℝ) < (a : ℝ) := by exact_mod_cast this
      linarith
    have hne : xw.1 ≠ [] := by intro h; rw [h] at hx; simp at hx
    exact ⟨unisolvent_one (fun x => e1 x 0) hne, by simpa [Form.dsize] using unisolvent_one (fun x => e2 x 0) hne,
      hx.1.trans hx.2.1.symm, hx.2.2⟩

theorem quadOK {ns ps : Nat × Nat × Nat} {q : Nat} {tr tt tz : String} {S : Seq ℝ}
    (hS : Seq.mk? ns ps q (tr, tt, tz) = .ok S) (hq : q ≤ 10) (hr : DirOK ns.1 ps.1 q tr)
    (ht : DirOK ns.2.1 ps.2.1 q tt) (hz : DirOK ns.2.2 ps.2.2 q tz) : S.QuadOK := by
  have hw := Seq.mk?_wf hS
  obtain ⟨m0, _, _, _, hQ⟩ := Seq.mk?_inv hS
  obtain ⟨_, hd, s0, s1, s2, d0, d1, d2⟩ := Form.mk?_inv m0
  have htens := Seq.rule_isTensor hQ
  unfold Quad.Rule.mk? at hQ
  split at hQ
  case h_2 => cases hQ
  rename_i rx ry rz hx hy hz'
  have hQ' := Except.ok.inj hQ
  obtain ⟨a1, a2, a3, a4⟩ := hr.facts hq s0 d0 hx
  obtain ⟨b1, b2, b3, b4⟩ := ht.facts hq s1 d1 hy
  obtain ⟨c1, c2, c3, c4⟩ := hz.facts hq s2 d2 hz'
  have exx : S.Q.xx = rx.1 := by rw [← hQ']; rfl
  have exy : S.Q.xy = ry.1 := by rw [← hQ']; rfl
  have exz : S.Q.xz = rz.1 := by rw [← hQ']; rfl
  refine ⟨hw, htens, ?_, ?_, ?_, ?_, ?_, ?_, ?_, ?_⟩
  · have := (C14_tensor_rule_order rx ry rz a3 b3 c3).2.1
    rw [hQ'] at this
    rw [this, Seq.nq, exx, exy, exz]
  · intro w hw'
    rw [← hQ'] at hw'
    simp only [Quad.Rule.ofRules, List.mem_flatMap, List.mem_map] at hw'
    obtain ⟨y, hy, x, hx, z, hz, rfl⟩ := hw'
    exact mul_pos (mul_pos (a4 x hx) (b4 y hy)) (c4 z hz)
  · rw [exx, hd]; exact a1
  · rw [exy, hd]; exact b1
  · rw [exz, hd]; exact c1
  · rw [exx, hd]; exact a2
  · rw [exy, hd]; exact b2
  · rw [exz, hd]; exact c2

namespace DeRham

/-- What a `DeRhamSequence` must satisfy for its mass matrices to be definite. -/
structure RegularCore (D : DeRham) : Prop where
  q : D.S.QuadOK
  e0 : ∀ x, D.E0ᵀ *ᵥ x = 0 → x = 0
  e1 : ∀ x, D.E1ᵀ *ᵥ x = 0 → x = 0
  e2 : ∀ x, D.E2ᵀ *ᵥ x = 0 → x = 0
  e3 : ∀ x, D.E3ᵀ *ᵥ x = 0 → x = 0
  J : ∀ j < D.nq, 0 < D.g.J j
  G : ∀ j < D.nq, SPD (D.g.G j)
  Ginv : ∀ j < D.nq, SPD (D.g.Ginv j)
  inv : ∀ j < D.nq, D.g.G j * D.g.Ginv j = 1

variable {D : DeRham} (h : D.RegularCore)
include h

theorem w_pos {j : Nat} (hj : j < D.nq) : 0 < D.w j := by
  unfold DeRham.w
  unfold DeRham.nq at hj
  rw [List.getD_eq_getElem?_getD, List.getElem?_eq_getElem hj]
  exact h.q.pos _ (List.getElem_mem _)

omit h in
theorem spd_smul {n : Nat} {A : Matrix (Fin n) (Fin n) ℝ} (hA : SPD A) {a : ℝ} (ha : 0 < a) : SPD (fun k l => A k l * a) := by
  have e : (fun k l => A k l * a : Matrix (Fin n) (Fin n) ℝ) = a • A := by
    ext k l; simp [mul_comm]
  rw [e]
  refine ⟨by rw [transpose_smul, hA.1], fun x hx => ?_⟩
  rw [smul_mulVec, dotProduct_smul]
  exact mul_pos ha (hA.2 x hx)

omit h in
theorem spd_one {a : ℝ} (ha : 0 < a) : SPD (fun _ _ => a : Matrix (Fin 1) (Fin 1) ℝ) := by
  refine ⟨by ext; rfl, fun x hx => ?_⟩
  have : x 0 ≠ 0 := fun h0 => hx (by funext k; rw [Subsingleton.elim k 0]; exact h0)
  simp [dotProduct, mulVec]
  have := mul_self_pos.mpr this
  nlinarith

theorem W0_spd {j : Nat} (hj : j < D.nq) : SPD (D.W0 j) := spd_one (mul_pos (h.J j hj) (w_pos h hj))
theorem W1_spd {j : Nat} (hj : j < D.nq) : SPD (D.W1 j) := spd_smul (h.Ginv j hj) (mul_pos (h.J j hj) (w_pos h hj))
theorem W2_spd {j : Nat} (hj : j < D.nq) : SPD (D.W2 j) :=
  spd_smul (h.G j hj) (mul_pos (div_pos one_pos (h.J j hj)) (w_pos h hj))
theorem W3_spd {j : Nat} (hj : j < D.nq) : SPD (D.W3 j) := spd_one (mul_pos (div_pos one_pos (h.J j hj)) (w_pos h hj))

theorem assemble_spd {g : Getter} {d n : Nat} {W : Nat → Matrix (Fin d) (Fin d) ℝ} (hW : ∀ j < D.nq, SPD (W j))
    (hz : ∀ v : Fin n → ℝ, (∀ j < D.S.nq, ∀ k < d, evaluateAtXq g v j k = 0) → v = 0) : SPD (assemble g g D.nq d W n n) := by
  have hp := assemble_psd (n := n) g W fun j hj => (hW j hj).psd
  refine ⟨hp.1, fun x hx => lt_of_le_of_ne (hp.2 x) fun h0 => hx (hz x ?_)⟩
  have := (assemble_zero_iff g W hW x).mp h0.symm
  rw [DeRham.nq, h.q.len] at this
  exact this

theorem M0_spd : SPD D.M0 := (assemble_spd h (fun _ hj => W0_spd h hj) (Seq.zero0 h.q)).congr D.E0 h.e0
theorem M1_spd : SPD D.M1 := (assemble_spd h (fun _ hj => W1_spd h hj) (Seq.zero1 h.q)).congr D.E1 h.e1
theorem M2_spd : SPD D.M2 := (assemble_spd h (fun _ hj => W2_spd h hj) (Seq.zero2 h.q)).congr D.E2 h.e2
theorem M3_spd : SPD D.M3 := (assemble_spd h (fun _ hj => W3_spd h hj) (Seq.zero3 h.q)).congr D.E3 h.e3

end DeRham
end Mrx
