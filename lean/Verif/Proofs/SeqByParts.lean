import Verif.Proofs.DirByParts
import Verif.Proofs.ByParts2

/-! # Admissible polar sequences satisfy the integration-by-parts conditions -/

set_option linter.unusedSectionVars false
set_option linter.unusedVariables false

namespace Mrx
open Finset Spec Polynomial Quad Props

/-- Size of the integration-by-parts error: the largest of the three one-dimensional bounds. -/
noncomputable def ibpEps (ns ps : Nat × Nat × Nat) (q : Nat) : ℝ :=
  max (dirEps ns.1 ps.1 q) (max (dirEps ns.2.1 ps.2.1 q) (dirEps ns.2.2 ps.2.2 q))
noncomputable def ibpBound (ns ps : Nat × Nat × Nat) : ℝ :=
  max (dirBound ns.1 ps.1) (max (dirBound ns.2.1 ps.2.1) (dirBound ns.2.2 ps.2.2))

theorem angular_type {n p q : Nat} {ty : String} (h : DirOK n p q ty) (hc : ty ≠ "clamped") : (ty = "periodic" ∨ ty = "constant") ∧ n ≤ 49975 := by
  rcases h with ⟨rfl, _⟩ | ⟨rfl, _, _, _, h, _⟩ | ⟨rfl, rfl, _⟩
  · exact absurd rfl hc
  · exact ⟨Or.inl rfl, h⟩
  · exact ⟨Or.inr rfl, by norm_num⟩

theorem seam {n p q : Nat} {ty : String} (h : DirOK n p q ty) (hc : ty ≠ "clamped") {s : SplineBasis ℝ}
    (hs : SplineBasis.mk? n p ty = .ok s) {i : Nat} (hi : i < n) : s.evaluate 0 i = s.evaluate 1 i := by
  rcases h with ⟨rfl, _⟩ | ⟨rfl, a, b, c, e, _⟩ | ⟨rfl, rfl, _⟩
  · exact absurd rfl hc
  · exact C06_periodic_seam n p a c b e s hs i hi
  · have hty : s.type = "constant" := (Form.spline_mk?_ok hs).2.2
    unfold SplineBasis.evaluate; simp [hty]

theorem seq_byParts {ns ps : Nat × Nat × Nat} {q : Nat} {tt tz : String} {S : Seq ℝ}
    (hS : Seq.mk? ns ps q ("clamped", tt, tz) = .ok S) (hq : q ≤ 10) (hr : DirOK ns.1 ps.1 q "clamped")
    (ht : DirOK ns.2.1 ps.2.1 q tt) (hz : DirOK ns.2.2 ps.2.2 q tz) (ct : tt ≠ "clamped") (cz : tz ≠ "clamped")
    (hnz : ns.2.2 ≤ ns.2.1) (hnr : ns.1 ≤ ns.2.1) : S.ByParts (ibpEps ns ps q) (ibpBound ns ps) := by
  have hok := quadOK hS hq hr ht hz
  have hr' : 1 ≤ ps.1 ∧ ps.1 < ns.1 ∧ ns.1 - ps.1 ≤ 99900 ∧ 1 ≤ q := by
    rcases hr with ⟨_, h⟩ | ⟨h, _⟩ | ⟨h, _⟩
    · exact ⟨h.1, h.2.1, h.2.2.1, by omega⟩
    · exact absurd h (by decide)
    · exact absurd h (by decide)
  obtain ⟨at1, at2⟩ := angular_type ht ct
  obtain ⟨az1, az2⟩ := angular_type hz cz
  have hder := Seq.derivOK hS at1 az1 (by omega) hq hr'.2.1 hr'.2.2.1 at2 az2
  have hw := Seq.mk?_wf hS
  obtain ⟨m0, _, _, _, hQ⟩ := Seq.mk?_inv hS
  obtain ⟨_, hd, s0, s1, s2, d0, d1, d2⟩ := Form.mk?_inv m0
  have enr : S.L0.dims.nr = ns.1 := by rw [hd]
  have ent : S.L0.dims.nt = ns.2.1 := by rw [hd]
  have enz : S.L0.dims.nz = ns.2.2 := by rw [hd]
  have edr : S.L0.dims.dr = Form.dsize ns.1 "clamped" := by rw [hd]
  have edt : S.L0.dims.dt = Form.dsize ns.2.1 tt := by rw [hd]
  have edz : S.L0.dims.dz = Form.dsize ns.2.2 tz := by rw [hd]
  unfold Quad.Rule.mk? at hQ
  split at hQ
  case h_2 => cases hQ
  rename_i rx ry rz hx hy hz'
  have hQ' := Except.ok.inj hQ
  have ir := hr.ibp hq s0 d0 hx
  have it := ht.ibp hq s1 d1 hy
  have iz := hz.ibp hq s2 d2 hz'
  have exx : S.Q.xx = rx.1 := by rw [← hQ']; rfl
  have exy : S.Q.xy = ry.1 := by rw [← hQ']; rfl
  have exz : S.Q.xz = rz.1 := by rw [← hQ']; rfl
  have ewx : S.Q.wx = rx.2 := by rw [← hQ']; rfl
  have ewy : S.Q.wy = ry.2 := by rw [← hQ']; rfl
  have ewz : S.Q.wz = rz.2 := by rw [← hQ']; rfl
  have mem : ∀ (l : List ℝ) j, j < l.length → l.getD j 0 ∈ l := by
    intro l j hj
    rw [List.getD_eq_getElem?_getD, List.getElem?_eq_getElem hj]; exact List.getElem_mem _
  have gd : ∀ (l : List ℝ) j (hj : j < l.length), l[j] = l.getD j 0 := by
    intro l j hj
    rw [List.getD_eq_getElem?_getD, List.getElem?_eq_getElem hj]; rfl
  have le1 : dirEps ns.1 ps.1 q ≤ ibpEps ns ps q := le_max_left _ _
  have le2 : dirEps ns.2.1 ps.2.1 q ≤ ibpEps ns ps q := (le_max_left _ _).trans (le_max_right _ _)
  have le3 : dirEps ns.2.2 ps.2.2 q ≤ ibpEps ns ps q := (le_max_right _ _).trans (le_max_right _ _)
  have lb1 : dirBound ns.1 ps.1 ≤ ibpBound ns ps := le_max_left _ _
  have lb2 : dirBound ns.2.1 ps.2.1 ≤ ibpBound ns ps := (le_max_left _ _).trans (le_max_right _ _)
  have lb3 : dirBound ns.2.2 ps.2.2 ≤ ibpBound ns ps := (le_max_right _ _).trans (le_max_right _ _)
  refine ⟨hw, (dirEps_nonneg _ _ _).trans le1, (dirBound_one _ _).trans lb1, hok.len, ?_, ?_, ?_, ?_, ?_, ?_, ?_, ?_, ?_, ?_, ?_, ?_, ?_, ?_, ?_, ?_⟩
  · intro j hj
    have hn : S.nq = S.Q.xy.length * S.Q.xx.length * S.Q.xz.length := rfl
    rw [hn] at hj
    obtain ⟨hu1, hu2, hu3, hu4⟩ : (S.unravelQuad j).1 < S.Q.xx.length ∧ (S.unravelQuad j).2.1 < S.Q.xy.length ∧ (S.unravelQuad j).2.2 < S.Q.xz.length ∧
        ((S.unravelQuad j).2.1 * S.Q.xx.length + (S.unravelQuad j).1) * S.Q.xz.length + (S.unravelQuad j).2.2 = j := by
      obtain ⟨g1, g2, g3, g4⟩ := Jax.unravelIndex3_spec hj
      exact ⟨g2, g1, g3, g4⟩
    obtain ⟨_, _, ho⟩ := C14_tensor_rule_order rx ry rz ir.len it.len iz.len
    rw [exx] at hu1; rw [exy] at hu2; rw [exz] at hu3; rw [exx, exz] at hu4
    have := (ho _ _ _ hu1 hu2 hu3).2
    rw [hu4, hQ'] at this
    rw [List.getD_eq_getElem?_getD, this, ewx, ewy, ewz, gd, gd, gd]
    rfl
  · rw [exx, ewx]; exact ir.pos
  · rw [exy, ewy]; exact it.pos
  · rw [exz, ewz]; exact iz.pos
  · rw [exx, ewx]; exact ir.sum
  · rw [exy, ewy]; exact it.sum
  · rw [exz, ewz]; exact iz.sum
  · intro p hp i hi
    rw [Seq.lamR_get hw hi hp, exx]
    exact ir.val _ (mem _ _ (exx ▸ hp)) i (enr ▸ hi)
  · intro p hp i hi
    rw [Seq.lamT_get hw hi hp, exy]
    exact it.val _ (mem _ _ (exy ▸ hp)) i (ent ▸ hi)
  · intro p hp i hi
    rw [Seq.lamZ_get hw hi hp, exz]
    exact iz.val _ (mem _ _ (exz ▸ hp)) i (enz ▸ hi)
  · intro p hp i hi
    rw [Seq.dlamR_get hw hi hp, exx]
    exact (ir.dval _ (mem _ _ (exx ▸ hp)) i (edr ▸ hi)).trans lb1
  · intro p hp i hi
    rw [Seq.dlamT_get hw hi hp, exy]
    exact (it.dval _ (mem _ _ (exy ▸ hp)) i (edt ▸ hi)).trans lb2
  · intro p hp i hi
    rw [Seq.dlamZ_get hw hi hp, exz]
    exact (iz.dval _ (mem _ _ (exz ▸ hp)) i (edz ▸ hi)).trans lb3
  · intro m hm m' hm'
    rw [enr] at hm hm'
    have hb := ir.ibp m (by omega) m' (by omega)
    have b1 := C05_clamped_endpoints ns.1 ps.1 hr'.2.1 hr'.2.2.1 _ s0 m (by omega)
    have b2 := C05_clamped_endpoints ns.1 ps.1 hr'.2.1 hr'.2.2.1 _ s0 m' (by omega)
    rw [b1.1, b1.2, b2.1, b2.2, if_neg (show ¬ m = ns.1 - 1 by omega)] at hb
    refine le_trans (le_of_eq ?_) (hb.trans le1)
    congr 1
    congr 1
    · rw [exx, ewx]
      refine Finset.sum_congr rfl fun a ha => ?_
      have ha := mem_range.mp ha
      have ha' : a < S.Q.xx.length := exx ▸ ha
      rw [Seq.diffR_eq S (nt := S.L0.dims.nt) (i := m) (by rw [enr, ent]; omega) (by omega), Seq.diffR_eq S (nt := S.L0.dims.nt) (i := m') (by rw [enr, ent]; omega) (by omega)]
      have r1 := (hder.r m (by omega) a ha').deriv
      have r2 := (hder.r m' (by omega) a ha').deriv
      rw [← r1, ← r2, Seq.lamR_get hw (by omega) ha', Seq.lamR_get hw (by omega) ha', exx]
    · by_cases c1 : m = 0 <;> by_cases c2 : m' = 0 <;> simp [c1, c2]
  · intro m hm m' hm'
    rw [ent] at hm hm'
    have hb := it.ibp m (by omega) m' (by omega)
    rw [seam ht ct s1 hm, seam ht ct s1 hm', sub_self, sub_zero] at hb
    refine le_trans (le_of_eq ?_) (hb.trans le2)
    congr 1
    rw [exy, ewy]
    refine Finset.sum_congr rfl fun a ha => ?_
    have ha := mem_range.mp ha
    have ha' : a < S.Q.xy.length := exy ▸ ha
    rw [Seq.diffT_eq, Seq.diffT_eq]
    have r1 := (hder.t m (by omega) a ha').deriv
    have r2 := (hder.t m' (by omega) a ha').deriv
    rw [← r1, ← r2, Seq.lamT_get hw (by omega) ha', Seq.lamT_get hw (by omega) ha', exy]
  · intro m hm m' hm'
    rw [enz] at hm hm'
    have hb := iz.ibp m (by omega) m' (by omega)
    rw [seam hz cz s2 hm, seam hz cz s2 hm', sub_self, sub_zero] at hb
    refine le_trans (le_of_eq ?_) (hb.trans le3)
    congr 1
    rw [exz, ewz]
    refine Finset.sum_congr rfl fun a ha => ?_
    have ha := mem_range.mp ha
    have ha' : a < S.Q.xz.length := exz ▸ ha
    rw [Seq.diffZ_eq S hw (by omega) hder.dz, Seq.diffZ_eq S hw (by omega) hder.dz]
    have r1 := (hder.z m (by omega) a ha').deriv
    have r2 := (hder.z m' (by omega) a ha').deriv
    rw [← r1, ← r2, Seq.lamZ_get hw (by omega) ha', Seq.lamZ_get hw (by omega) ha', exz]

end Mrx
