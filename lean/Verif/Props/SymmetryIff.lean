import Verif.Proofs.Case
import Verif.Props.Symmetry
import Verif.Props.ExactIff2
import Verif.Proofs.Cover

/-!
# C98: the exact domain of the toroidal symmetry
-/

set_option linter.unusedSectionVars false
set_option linter.unusedVariables false

namespace Mrx.Props
open Spec Matrix Quad Mrx.DeRham

variable {ns ps : Nat × Nat × Nat} {q : Nat} {types : String × String × String} {F : V3 → V3} {polar dirichlet : Bool} {D : DeRham}

/-- Moving a vector moves its array of coefficients. -/
theorem coef_shift (d : Dims) {nz m : Nat} (hz : 0 < nz) (hk : Dims.validDegree d.k) (h1 : d.nz = nz) (h2 : d.dz = nz) (v : Fin d.n → ℝ) {c i j l : Nat} (hr : d.InRange c i j l)
    (hr' : d.InRange c i j ((l + m) % nz)) :
    coef d (shiftVec nz m v) c i j l = coef d v c i j ((l + m) % nz) := by
  have hlt := d.ravelIndex_lt hk hr
  obtain ⟨u, -, dn, -⟩ := d.unravelIndex_shift (m := m) hz hk h1 h2 hlt
  rw [d.unravelIndex_ravelIndex hk hr] at u
  have hs : shiftIndex nz m (d.ravelIndex c i j l) < d.n := shiftIndex_lt hz dn hlt
  have e : d.ravelIndex c i j ((l + m) % nz) = shiftIndex nz m (d.ravelIndex c i j l) := by
    have := (d.unravelIndex_inRange hk hs).2
    rw [u] at this
    exact this
  unfold coef
  rw [dif_pos hlt, dif_pos (by rw [e]; exact hs)]
  unfold shiftVec
  rw [dif_pos hs]
  congr 1
  exact Fin.ext e.symm

section
variable (h : Admissible ns ps q types F polar dirichlet D) (hr : types.1 = "clamped") (ht : types.2.1 ≠ "clamped") (hp : types.2.2 = "periodic") {m : Nat} (hm : m < ns.2.2)
include h hr ht hp hm

/-- With more toroidal than poloidal splines the divergence does not commute with the shift. -/
theorem div_not_symmetric (m0 : 0 < m) (hc : ns.2.1 < ns.2.2) : ¬ CommutesWithShift ns.2.2 m D.strongDiv := by
  intro H
  have hz : types.2.2 ≠ "clamped" := by rw [hp]; decide
  have cw := h.cw hr ht hz
  have hN := cw.hN
  have hM := cw.hM
  have hL := cw.hL
  obtain ⟨d1, d2, d3⟩ := h.dimsZ hp
  obtain ⟨k0, k1, k2, k3⟩ := h.degrees
  obtain ⟨e1, e2, e3⟩ := h.dims_k hp
  have hz0 : 0 < ns.2.2 := by omega
  obtain ⟨-, -, x2, x3⟩ := h.extract_dvd hp
  obtain ⟨-, -, y2, y3⟩ := h.form_dvd hp
  obtain ⟨-, -, s2, s3⟩ := h.extract_shift hp (m := m)
  have i2 : Inv (shiftPerm ns.2.2 m _ hz0 x2) (shiftPerm ns.2.2 m _ hz0 y2) D.E2 := by
    ext r c; exact s2 r c _ _
  have i3 : Inv (shiftPerm ns.2.2 m _ hz0 x3) (shiftPerm ns.2.2 m _ hz0 y3) D.E3 := by
    ext r c; exact s3 r c _ _
  have t2 : ∀ u, D.E2ᵀ *ᵥ shiftVec ns.2.2 m u = shiftVec ns.2.2 m (D.E2ᵀ *ᵥ u) := fun u => by
    rw [← comp_shiftPerm hz0 x2, i2.tr.mulVec, comp_shiftPerm]
  have t3 : ∀ u, D.E3ᵀ *ᵥ shiftVec ns.2.2 m u = shiftVec ns.2.2 m (D.E3ᵀ *ᵥ u) := fun u => by
    rw [← comp_shiftPerm hz0 x3, i3.tr.mulVec, comp_shiftPerm]
  obtain ⟨_, _, _, _, j0, j1, j2, j3⟩ := dk_in ns.1 ns.2.1 ns.2.2
  obtain ⟨u, u0, u1, u2⟩ := cw.make2 (P2.profile (M := ns.2.1) (L := ns.2.2) (b1 := fun _ _ _ => 0) hN (zero_mem (F1 polar dirichlet ns.1)) (fun _ _ => 0)
      (fun _ _ _ _ _ => rfl)) (a2 := fun i _ l => (if i = ns.1 - 2 then 1 else 0) * (if l = 0 then 1 else 0)) (by
        intro e j hj l hl
        have := cw.hp e
        beta_reduce
        rw [if_neg (by omega), zero_mul])
  have c2 : ∀ c i j l, D.S.L2.dims.InRange c i j l → D.S.L2.dims.InRange c i j ((l + m) % ns.2.2) →
      coef D.S.L2.dims (D.E2ᵀ *ᵥ shiftVec ns.2.2 m u) c i j l = coef D.S.L2.dims (D.E2ᵀ *ᵥ u) c i j ((l + m) % ns.2.2) := fun c i j l a b => by
    rw [t2]
    exact coef_shift _ hz0 (by unfold Dims.validDegree; omega) (by rw [e2]; exact d1) (by rw [e2]; exact d2) _ a b
  have hlt : ns.2.2 - m - 1 < ns.2.2 := by omega
  have em : (ns.2.2 - m - 1 + m) % ns.2.2 = ns.2.2 - 1 := by rw [show ns.2.2 - m - 1 + m = ns.2.2 - 1 by omega, Nat.mod_eq_of_lt (by omega)]
  have hin : ∀ l < ns.2.2, D.S.L3.dims.InRange 0 (ns.1 - 2) 0 l := fun l hl => by rw [cw.d3]; exact (j3 _ _ _ _).mpr ⟨rfl, by omega, by omega, hl⟩
  have A := cw.div_arr (shiftVec ns.2.2 m u) (ns.1 - 2) (by omega) 0 (by omega) (ns.2.2 - m - 1) hlt
  have B := cw.div_arr u (ns.1 - 2) (by omega) 0 (by omega) (ns.2.2 - 1) (by omega)
  rw [H u, t3, coef_shift _ hz0 (by unfold Dims.validDegree; omega) (by rw [e3]; exact d1) (by rw [e3]; exact d2) _ (hin _ hlt) (hin _ (Nat.mod_lt _ hz0)), em, B] at A
  have hmod : ∀ l, (l + m) % ns.2.2 < ns.2.2 := fun l => Nat.mod_lt _ hz0
  have r0 : ∀ i < ns.1, coef D.S.L2.dims (D.E2ᵀ *ᵥ shiftVec ns.2.2 m u) 0 i 0 (ns.2.2 - m - 1) = 0 := fun i hi => by
    rw [c2 0 i 0 _ (by rw [cw.d2]; exact (j0 _ _ _).mpr ⟨hi, by omega, hlt⟩) (by rw [cw.d2]; exact (j0 _ _ _).mpr ⟨hi, by omega, hmod _⟩), u0 i hi 0 (by omega) _ (hmod _)]
    simp
  have r1 : ∀ j < ns.2.1, coef D.S.L2.dims (D.E2ᵀ *ᵥ shiftVec ns.2.2 m u) 1 (ns.1 - 2) j (ns.2.2 - m - 1) = 0 := fun j hj => by
    rw [c2 1 _ j _ (by rw [cw.d2]; exact (j1 _ _ _).mpr ⟨by omega, hj, hlt⟩) (by rw [cw.d2]; exact (j1 _ _ _).mpr ⟨by omega, hj, hmod _⟩), u1 _ (by omega) j hj _ (hmod _)]
  have r2 : ∀ l < ns.2.2, coef D.S.L2.dims (D.E2ᵀ *ᵥ shiftVec ns.2.2 m u) 2 (ns.1 - 2) 0 l = if (l + m) % ns.2.2 = 0 then 1 else 0 := fun l hl => by
    rw [c2 2 _ 0 _ (by rw [cw.d2]; exact (j2 _ _ _).mpr ⟨by omega, by omega, hl⟩) (by rw [cw.d2]; exact (j2 _ _ _).mpr ⟨by omega, by omega, hmod _⟩), u2 _ (by omega) 0 (by omega) _ (hmod _),
      if_pos rfl, one_mul]
  rw [codeRad_congr (by omega : ns.1 - 2 < ns.1 - 1) (fun k hk => r0 k hk), codeRad_congr (by omega : ns.1 - 2 < ns.1 - 1) (fun k hk => u0 k hk 0 (by omega) _ (by omega)),
    codeAx_congr (by omega : ns.2.2 - 1 < ns.2.2) (fun l hl => u2 (ns.1 - 2) (by omega) 0 (by omega) l hl), codeAx_congr hlt r2] at A
  unfold cyc at A
  beta_reduce at A
  rw [r1 _ (Nat.mod_lt _ (by omega)), r1 _ (by omega), u1 _ (by omega) _ (Nat.mod_lt _ (by omega)) _ (by omega), u1 _ (by omega) _ (by omega) _ (by omega)] at A
  simp only [mul_zero, codeRad_zero'] at A
  unfold codeAx at A
  beta_reduce at A
  rw [if_pos rfl, if_neg (show ¬ ns.2.2 - 1 + 1 < ns.2.2 by omega), if_neg (show ¬ ns.2.2 - 1 = min (ns.2.1 - 1) (ns.2.2 - 1) by omega), if_neg (show ¬ ns.2.2 - 1 = 0 by omega),
    if_pos (show ns.2.2 - m - 1 + 1 < ns.2.2 by omega), if_pos (show (ns.2.2 - m - 1 + 1 + m) % ns.2.2 = 0 by rw [show ns.2.2 - m - 1 + 1 + m = ns.2.2 by omega, Nat.mod_self]),
    if_neg (show ¬ (0 + m) % ns.2.2 = 0 by rw [Nat.zero_add, Nat.mod_eq_of_lt hm]; omega), em, if_neg (show ¬ ns.2.2 - 1 = 0 by omega)] at A
  simp at A

/-- **C98** (exact domain) on a symmetric device the divergence commutes with the shift exactly if there are at most as many toroidal as poloidal splines: otherwise the wrap-around of the toroidal
differences, which uses the number of poloidal splines, singles out one toroidal position. -/
theorem C98_domain_iff (m0 : 0 < m) {R R0 : M33} (hs : IsSymmetric F ((m : ℝ) / (ns.2.2 : ℝ)) R) (h0 : IsSymmetric F 1 R0) :
    CommutesWithShift ns.2.2 m D.strongDiv ↔ ns.2.2 ≤ ns.2.1 := by
  constructor
  · intro H
    by_contra hc
    exact div_not_symmetric h hr ht hp hm m0 (by omega) H
  · intro hnt
    exact (C98_operators h hp hnt hm hs h0).2.2.2.2.2.2.1

end

/-! ## Symmetric coefficients and symmetric fields -/

theorem zeta_inside (h : Admissible ns ps q types F polar dirichlet D) {j : Nat} (hj : j < D.nq) : 0 < D.x j 2 ∧ D.x j 2 < 1 := by
  have hw := h.quad.wf
  obtain ⟨m0, _, _, _, hQ⟩ := Seq.mk?_inv (Admissible.seq h.built)
  obtain ⟨_, hdd, s0, s1, s2, d0, d1, d2⟩ := Form.mk?_inv m0
  have hj' : j < D.S.nq := by
    have := h.quad.len
    rw [DeRham.nq] at hj
    omega
  obtain ⟨a1, a2, a3, _⟩ := D.S.unravelQuad_spec hj'
  have ex : D.x j = toV3 (D.S.Q.xx.getD (D.S.unravelQuad j).1 0, D.S.Q.xy.getD (D.S.unravelQuad j).2.1 0, D.S.Q.xz.getD (D.S.unravelQuad j).2.2 0) :=
    congrArg toV3 (D.S.point_eq h.quad.tensor hj')
  unfold Quad.Rule.mk? at hQ
  split at hQ
  case h_2 => cases hQ
  rename_i rx ry rz hx hy hz
  have hQ' := Except.ok.inj hQ
  have ez : D.S.Q.xz = rz.1 := by rw [← hQ']; rfl
  have mem : ∀ {l : List ℝ} {i : Nat}, i < l.length → l.getD i 0 ∈ l := by
    intro l i hi
    rw [List.getD_eq_getElem?_getD, List.getElem?_eq_getElem hi]; exact List.getElem_mem _
  have r := dir_strict h.z h.q10 s2 hz _ (ez ▸ mem a3)
  rw [ex]
  rw [← ez] at r
  exact r

/-- **C98** the coefficients of a 2-form do not change when moved by `m` cells exactly if its physical field is turned with the device by that advance (`R` is the motion of the device for `m / nz`,
`R0` that for one unit of the toroidal coordinate). -/
theorem C98_symmetric_iff (h : Admissible ns ps q types F polar dirichlet D) (hp : types.2.2 = "periodic") {m : Nat} (hm : m < ns.2.2) {R R0 : M33}
    (hs : IsSymmetric F ((m : ℝ) / (ns.2.2 : ℝ)) R) (h0 : IsSymmetric F 1 R0) (u : Fin D.m2 → ℝ) :
    shiftVec ns.2.2 m u = u ↔ ∀ y : V3, 0 ≤ y 2 → y 2 < 1 →
      (y 2 + (m : ℝ) / ns.2.2 < 1 → D.phys2 u ![y 0, y 1, y 2 + (m : ℝ) / ns.2.2] = R *ᵥ D.phys2 u y) ∧
      (1 ≤ y 2 + (m : ℝ) / ns.2.2 → D.phys2 u ![y 0, y 1, y 2 + ((m : ℝ) / ns.2.2 - 1)] = (R0ᵀ * R) *ᵥ D.phys2 u y) := by
  have hz : (0 : ℝ) < ns.2.2 := by exact_mod_cast (by omega : 0 < ns.2.2)
  have ha0 : (0 : ℝ) ≤ (m : ℝ) / ns.2.2 := by positivity
  have ha1 : (m : ℝ) / ns.2.2 < 1 := by rw [div_lt_one hz]; exact_mod_cast hm
  have hb := symmetric_back hs h0
  have f1 : ∀ y : V3, 0 ≤ y 2 → y 2 < 1 → y 2 + (m : ℝ) / ns.2.2 < 1 → D.phys2 u ![y 0, y 1, y 2 + (m : ℝ) / ns.2.2] = R *ᵥ D.phys2 (shiftVec ns.2.2 m u) y :=
    fun y a b c => (C98_fields h hp hm (Or.inl rfl) hs a b (by linarith) c).2.2.1 u
  have f2 : ∀ y : V3, 0 ≤ y 2 → y 2 < 1 → 1 ≤ y 2 + (m : ℝ) / ns.2.2 → D.phys2 u ![y 0, y 1, y 2 + ((m : ℝ) / ns.2.2 - 1)] = (R0ᵀ * R) *ᵥ D.phys2 (shiftVec ns.2.2 m u) y :=
    fun y a b c => (C98_fields h hp hm (Or.inr rfl) hb a b (by linarith) (by linarith)).2.2.1 u
  constructor
  · intro e y a b
    rw [e] at f1 f2
    exact ⟨f1 y a b, f2 y a b⟩
  · intro H
    have cancel : ∀ {Q : M33}, IsRotation Q → ∀ v w : V3, Q *ᵥ v = Q *ᵥ w → v = w := @fun Q hQ v w e => by
      have := congrArg (Qᵀ *ᵥ ·) e
      simp only [mulVec_mulVec, hQ.orth, one_mulVec] at this
      exact this
    have key : ∀ j < D.nq, D.phys2 (shiftVec ns.2.2 m u) (D.x j) = D.phys2 u (D.x j) := by
      intro j hj
      obtain ⟨z0, z1⟩ := zeta_inside h hj
      obtain ⟨H1, H2⟩ := H _ z0.le z1
      by_cases c : D.x j 2 + (m : ℝ) / ns.2.2 < 1
      · exact cancel hs.1 _ _ (by rw [← f1 _ z0.le z1 c, H1 c])
      · have c := not_lt.1 c
        exact cancel hb.1 _ _ (by rw [← f2 _ z0.le z1 c, H2 c])
    have e : (shiftVec ns.2.2 m u - u) ⬝ᵥ D.M2 *ᵥ (shiftVec ns.2.2 m u - u) = 0 := by
      have c : ∀ v w v' w' : Fin D.m2 → ℝ, (∀ j < D.nq, D.phys2 v (D.x j) = D.phys2 v' (D.x j)) → (∀ j < D.nq, D.phys2 w (D.x j) = D.phys2 w' (D.x j)) →
          v ⬝ᵥ D.M2 *ᵥ w = v' ⬝ᵥ D.M2 *ᵥ w' := by
        intro v w v' w' a b
        rw [h.M2_l2, h.M2_l2, h.l2_eq, h.l2_eq]
        refine Finset.sum_congr rfl fun j hj => ?_
        rw [a j (Finset.mem_range.1 hj), b j (Finset.mem_range.1 hj)]
      rw [mulVec_sub, sub_dotProduct, dotProduct_sub, dotProduct_sub, c _ _ u u key key, c _ u u u key (fun _ _ => rfl), c u _ u u (fun _ _ => rfl) key]
      ring
    exact sub_eq_zero.1 ((M2_spd h.core).eq_zero e)

/-! The standard case. -/

example (polar dirichlet : Bool) := C98_domain_iff (Case.adm polar dirichlet) rfl (by decide) rfl (m := 1) (by norm_num) (by norm_num) (Case.symmetric _) (Case.symmetric _)
example (polar dirichlet : Bool) := C98_symmetric_iff (Case.adm polar dirichlet) rfl (m := 1) (by norm_num) (Case.symmetric _) (Case.symmetric _)

end Mrx.Props
