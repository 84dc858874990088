import Verif.Lemmas.Esirkepov
import Verif.Model.Deposition2d

namespace Picsar.Deposition2d
open Picsar Picsar.Grid Picsar.Deposition

/-! ### Ghost closed forms -/

noncomputable def wX2 (L : Loc2) (i k : ℤ) : ℝ := L.wqx * (L.sx i - L.sx0 i) * (L.sz0 k + 1 / 2 * (L.sz k - L.sz0 k))
noncomputable def wZ2 (L : Loc2) (i k : ℤ) : ℝ := L.wqz * (L.sz k - L.sz0 k) * (L.sx0 i + 1 / 2 * (L.sx i - L.sx0 i))
noncomputable def wY2 (L : Loc2) (i k : ℤ) : ℝ := L.wqy * ((L.sz0 k + 1 / 2 * (L.sz k - L.sz0 k)) * L.sx0 i +
    (1 / 2 * L.sz0 k + 1 / 3 * (L.sz k - L.sz0 k)) * (L.sx i - L.sx0 i))

noncomputable def PX2 (L : Loc2) (i k : ℤ) : ℝ := ∑ a ∈ Finset.Icc L.xl i, wX2 L a k
noncomputable def PZ2 (L : Loc2) (i k : ℤ) : ℝ := ∑ c ∈ Finset.Icc L.zl k, wZ2 L i c

/-- `(a,c)` comes before `(i,k)` in loop order. -/
def Bef2 (i k a c : ℤ) : Prop := c < k ∨ (c = k ∧ a < i)

instance (i k a c : ℤ) : Decidable (Bef2 i k a c) := by unfold Bef2; infer_instance

def InR2 (L : Loc2) (a c : ℤ) : Prop := L.xl ≤ a ∧ a ≤ L.xh ∧ L.zl ≤ c ∧ c ≤ L.zh

instance (L : Loc2) (a c : ℤ) : Decidable (InR2 L a c) := by unfold InR2; infer_instance

noncomputable def contrib2 (L : Loc2) (a c : ℤ) : Comp → ℝ
  | .jx => if a < L.xh then PX2 L a c else 0
  | .jy => wY2 L a c
  | .jz => if c < L.zh then PZ2 L a c else 0
  | _ => 0

/-- What has been added when the loops stand at `(i,k)`. -/
noncomputable def F2 (L : Loc2) (i k : ℤ) : Comp → I3 → ℝ := fun c p =>
  if p.k = 0 ∧ InR2 L (p.j - L.i0) (p.l - L.k0) ∧ Bef2 i k (p.j - L.i0) (p.l - L.k0)
  then contrib2 L (p.j - L.i0) (p.l - L.k0) c else 0

/-- What one particle adds. -/
noncomputable def FF2 (L : Loc2) : Comp → I3 → ℝ := fun c p =>
  if p.k = 0 ∧ InR2 L (p.j - L.i0) (p.l - L.k0) then contrib2 L (p.j - L.i0) (p.l - L.k0) c else 0

def Covers2 (L : Loc2) (σ : Mem) : Prop := ∀ i k, InR2 L i k →
  ∀ c, c = .jx ∨ c = .jy ∨ c = .jz → InBox (σ c).lo (σ c).hi ⟨L.i0 + i, 0, L.k0 + k⟩

def LocOk2 (D : Dims) (L : Loc2) : Prop := D.xl ≤ L.xl ∧ L.xh ≤ D.xu ∧ D.zl ≤ L.zl ∧ L.zh ≤ D.zu

theorem F2_step (L : Loc2) {i k : ℤ} (hr : InR2 L i k) (c : Comp) (p : I3) :
    F2 L (i + 1) k c p = F2 L i k c p + pt .jx ⟨L.i0 + i, 0, L.k0 + k⟩ (contrib2 L i k .jx) c p +
      pt .jy ⟨L.i0 + i, 0, L.k0 + k⟩ (contrib2 L i k .jy) c p +
      pt .jz ⟨L.i0 + i, 0, L.k0 + k⟩ (contrib2 L i k .jz) c p := by
  by_cases hp : p = ⟨L.i0 + i, 0, L.k0 + k⟩
  · subst hp
    simp only [F2, pt, add_sub_cancel_left, true_and]
    rw [if_pos ⟨hr, by unfold Bef2; omega⟩, if_neg (by unfold Bef2; omega)]
    cases c <;> simp [contrib2]
  · simp only [F2, pt, hp, and_false, if_false, add_zero]
    have : (p.k = 0 ∧ InR2 L (p.j - L.i0) (p.l - L.k0) ∧ Bef2 (i + 1) k (p.j - L.i0) (p.l - L.k0)) ↔
        (p.k = 0 ∧ InR2 L (p.j - L.i0) (p.l - L.k0) ∧ Bef2 i k (p.j - L.i0) (p.l - L.k0)) := by
      unfold Bef2
      constructor
      · rintro ⟨h0, h1, h⟩
        have : ¬ (p.j - L.i0 = i ∧ p.l - L.k0 = k) := by
          rintro ⟨a, c⟩
          apply hp
          obtain ⟨pj, pk, pl⟩ := p
          simp only [I3.mk.injEq]
          simp only at a c h0
          omega
        exact ⟨h0, h1, by omega⟩
      · rintro ⟨h0, h1, h⟩
        exact ⟨h0, h1, by omega⟩
    simp only [this]

theorem F2_row (L : Loc2) (k : ℤ) : F2 L (L.xh + 1) k = F2 L L.xl (k + 1) := by
  funext c p
  unfold F2
  congr 1
  simp only [eq_iff_iff]
  unfold InR2 Bef2
  omega

theorem F2_start (L : Loc2) : F2 L L.xl L.zl = fun _ _ => 0 := by
  funext c p
  unfold F2
  rw [if_neg]
  unfold InR2 Bef2
  omega

theorem F2_end (L : Loc2) : F2 L L.xl (L.zh + 1) = FF2 L := by
  funext c p
  unfold F2 FF2
  congr 1
  simp only [eq_iff_iff]
  unfold InR2 Bef2
  omega

theorem addF_zero (σ : Mem) : addF σ (fun _ _ => 0) = σ := by
  funext c; simp [addF]

theorem addY_ok {L : Loc2} {σ : Mem} {f : Comp → I3 → ℝ} {i k : ℤ} (hb : InBox (σ .jy).lo (σ .jy).hi ⟨L.i0 + i, 0, L.k0 + k⟩) :
    addY L i k (addF σ f) = .ok (addF σ (fun c p => f c p + pt .jy ⟨L.i0 + i, 0, L.k0 + k⟩ (contrib2 L i k .jy) c p)) := by
  unfold addY
  rw [bumpMem_ok hb]
  rfl

theorem addF_skip {σ : Mem} {f : Comp → I3 → ℝ} {c : Comp} {P : I3} {v : ℝ} (h : v = 0) :
    addF σ f = addF σ (fun c' p => f c' p + pt c P v c' p) := by
  subst h
  congr 1
  funext c' p
  simp [pt]

/-! ### Unrolled version -/

structure InvU (L : Loc2) (σ : Mem) (i k : ℤ) (s : AccU) : Prop where
  mem : s.mem = addF σ (F2 L i k)
  x : L.xl < i → i ≤ L.xh → s.sdxim1 = PX2 L (i - 1) k
  z : ∀ a, L.xl ≤ a → a < i → k < L.zh → s.sdzk a = PZ2 L a k
  z1 : ∀ a, L.xl ≤ a → a ≤ L.xh → L.zl < k → k ≤ L.zh → s.sdzkm1 a = PZ2 L a (k - 1)

theorem doXU_ok {L : Loc2} {σ : Mem} {f : Comp → I3 → ℝ} {i k : ℤ} {s : AccU} (hi : L.xl ≤ i) (hm : s.mem = addF σ f)
    (hx : L.xl < i → i ≤ L.xh → s.sdxim1 = PX2 L (i - 1) k)
    (hb : InBox (σ .jx).lo (σ .jx).hi ⟨L.i0 + i, 0, L.k0 + k⟩) :
    ∃ s1, doXU L i k s = .ok s1 ∧
      s1.mem = addF σ (fun c p => f c p + pt .jx ⟨L.i0 + i, 0, L.k0 + k⟩ (contrib2 L i k .jx) c p) ∧
      (i < L.xh → s1.sdxi = PX2 L i k) ∧ s1.sdzk = s.sdzk ∧ s1.sdzkm1 = s.sdzkm1 := by
  unfold doXU
  by_cases h : i < L.xh
  · simp only [if_pos h]
    have hv : (if i > L.xl then wX2 L i k + s.sdxim1 else wX2 L i k) = PX2 L i k :=
      acc_step hi (fun a => wX2 L a k) (fun h' => hx h' h.le)
    simp only [wX2] at hv
    rw [hv, hm, bumpMem_ok hb]
    refine ⟨_, rfl, ?_, fun _ => rfl, rfl, rfl⟩
    simp only [contrib2, if_pos h]
  · simp only [if_neg h]
    refine ⟨s, rfl, ?_, fun h' => (h h').elim, rfl, rfl⟩
    rw [hm]
    exact addF_skip (by simp [contrib2, if_neg h])

theorem doZU_ok {L : Loc2} {σ : Mem} {f : Comp → I3 → ℝ} {i k : ℤ} {s : AccU} (hk : L.zl ≤ k) (hm : s.mem = addF σ f)
    (hz : L.zl < k → k ≤ L.zh → s.sdzkm1 i = PZ2 L i (k - 1))
    (hb : InBox (σ .jz).lo (σ .jz).hi ⟨L.i0 + i, 0, L.k0 + k⟩) :
    ∃ s1, doZU L i k s = .ok s1 ∧
      s1.mem = addF σ (fun c p => f c p + pt .jz ⟨L.i0 + i, 0, L.k0 + k⟩ (contrib2 L i k .jz) c p) ∧
      (k < L.zh → s1.sdzk = Function.update s.sdzk i (PZ2 L i k)) ∧ s1.sdxi = s.sdxi ∧ s1.sdzkm1 = s.sdzkm1 := by
  unfold doZU
  by_cases h : k < L.zh
  · simp only [if_pos h]
    have hv : (if k > L.zl then wZ2 L i k + s.sdzkm1 i else wZ2 L i k) = PZ2 L i k :=
      acc_step hk (fun c => wZ2 L i c) (fun h' => hz h' h.le)
    simp only [wZ2] at hv
    rw [hv, hm, bumpMem_ok hb]
    refine ⟨_, rfl, ?_, fun _ => rfl, rfl, rfl⟩
    simp only [contrib2, if_pos h]
  · simp only [if_neg h]
    refine ⟨s, rfl, ?_, fun h' => (h h').elim, rfl, rfl⟩
    rw [hm]
    exact addF_skip (by simp [contrib2, if_neg h])

theorem cellU_ok {D : Dims} {L : Loc2} {σ : Mem} (hl : LocOk2 D L) (hc : Covers2 L σ) {i k : ℤ} (hr : InR2 L i k) {s : AccU}
    (I : InvU L σ i k s) : ∃ s', cellU D L i k s = .ok s' ∧ InvU L σ (i + 1) k s' := by
  obtain ⟨r1, r2, r5, r6⟩ := id hr
  obtain ⟨l1, l2, l5, l6⟩ := hl
  obtain ⟨s1, e1, m1, x1, a1, a2⟩ := doXU_ok (s := s) r1 I.mem I.x (hc i k hr .jx (by simp))
  have e2 := addY_ok (f := fun c p => F2 L i k c p + pt .jx ⟨L.i0 + i, 0, L.k0 + k⟩ (contrib2 L i k .jx) c p)
    (hc i k hr .jy (by simp))
  rw [← m1] at e2
  obtain ⟨s3, e3, m3, z3, c1, c2⟩ := doZU_ok (f := fun c p => F2 L i k c p + pt .jx ⟨L.i0 + i, 0, L.k0 + k⟩ (contrib2 L i k .jx) c p +
      pt .jy ⟨L.i0 + i, 0, L.k0 + k⟩ (contrib2 L i k .jy) c p) (i := i) (s := { s1 with mem := addF σ (fun c p =>
      F2 L i k c p + pt .jx ⟨L.i0 + i, 0, L.k0 + k⟩ (contrib2 L i k .jx) c p +
      pt .jy ⟨L.i0 + i, 0, L.k0 + k⟩ (contrib2 L i k .jy) c p) }) r5 rfl
    (fun p q => by show s1.sdzkm1 i = _; rw [a2]; exact I.z1 i r1 r2 p q) (hc i k hr .jz (by simp))
  refine ⟨{ s3 with sdxim1 := s3.sdxi }, ?_, ?_⟩
  · unfold cellU
    rw [if_pos ⟨by omega, by omega, by omega, by omega⟩, e1]
    simp only [except_bind_ok]
    rw [e2]
    simp only [except_bind_ok]
    rw [e3]
    rfl
  · refine ⟨?_, ?_, ?_, ?_⟩
    · show s3.mem = _
      rw [m3]
      congr 1
      funext c p
      rw [F2_step L hr c p]
    · intro h1 h2
      show s3.sdxi = _
      rw [c1]
      show s1.sdxi = _
      rw [x1 (by omega)]
      simp
    · intro a h1 h2 h3
      show s3.sdzk a = _
      rw [z3 h3]
      show Function.update s1.sdzk i _ a = _
      rw [a1]
      by_cases ha : a = i
      · subst ha; simp
      · rw [Function.update_of_ne ha]
        exact I.z a h1 (by omega) h3
    · intro a h1 h2 h3 h4
      show s3.sdzkm1 a = _
      rw [c2]
      show s1.sdzkm1 a = _
      rw [a2]
      exact I.z1 a h1 h2 h3 h4

theorem rowU_ok {D : Dims} {L : Loc2} {σ : Mem} (hl : LocOk2 D L) (hc : Covers2 L σ) (hx : L.xl ≤ L.xh) {k : ℤ}
    (hk : L.zl ≤ k ∧ k ≤ L.zh) {s : AccU} (I : InvU L σ L.xl k s) :
    ∃ s', rowU D L k s = .ok s' ∧ InvU L σ L.xl (k + 1) s' := by
  obtain ⟨s1, e1, I1⟩ := foldlM_irange_inv (body := fun (s : AccU) (i : ℤ) => cellU D L i k s)
    (fun i s => InvU L σ i k s) _ L.xh rfl (by omega)
    (fun i s h1 h2 I => cellU_ok hl hc ⟨h1, h2, hk.1, hk.2⟩ I) s I
  refine ⟨{ s1 with sdzkm1 := s1.sdzk }, ?_, ?_⟩
  · unfold rowU
    rw [e1]
    rfl
  · refine ⟨?_, ?_, ?_, ?_⟩
    · show s1.mem = _
      rw [I1.mem, F2_row]
    · intro h; omega
    · intro a h1 h2; omega
    · intro a h1 h2 h3 h4
      show s1.sdzk a = _
      rw [I1.z a h1 (by omega) (by omega)]
      simp

theorem planeU_ok {D : Dims} {L : Loc2} {s : AccU} (hl : LocOk2 D L) (hc : Covers2 L s.mem) (hx : L.xl ≤ L.xh)
    (hz : L.zl ≤ L.zh) : ∃ s', planeU D L s = .ok s' ∧ s'.mem = addF s.mem (FF2 L) := by
  obtain ⟨s1, e1, I1⟩ := foldlM_irange_inv (body := fun (s : AccU) (k : ℤ) => rowU D L k s)
    (fun k s' => InvU L s.mem L.xl k s') _ L.zh rfl (by omega)
    (fun k s h1 h2 I => rowU_ok hl hc hx ⟨h1, h2⟩ I) s (by
      refine ⟨?_, fun h => by omega, fun a h1 h2 => by omega, fun a h1 h2 h3 => by omega⟩
      rw [F2_start, addF_zero])
  refine ⟨s1, e1, ?_⟩
  rw [I1.mem, F2_end]

/-! ### Version of any order -/

structure InvN (L : Loc2) (σ : Mem) (i k : ℤ) (s : AccN) : Prop where
  mem : s.mem = addF σ (F2 L i k)
  x : L.xl < i → i ≤ L.xh → s.sdx (i - 1) k = PX2 L (i - 1) k
  z : ∀ a, L.xl ≤ a → a < i → k < L.zh → s.sdz a k = PZ2 L a k
  z1 : ∀ a, L.xl ≤ a → a ≤ L.xh → L.zl < k → k ≤ L.zh → s.sdz a (k - 1) = PZ2 L a (k - 1)
  sx0 : s.sx0 = L.sx0
  sz0 : s.sz0 = L.sz0

theorem doXN_ok {L : Loc2} {σ : Mem} {f : Comp → I3 → ℝ} {i k : ℤ} {s : AccN} (hi : L.xl ≤ i) (hm : s.mem = addF σ f)
    (hx : L.xl < i → i ≤ L.xh → s.sdx (i - 1) k = PX2 L (i - 1) k)
    (hb : InBox (σ .jx).lo (σ .jx).hi ⟨L.i0 + i, 0, L.k0 + k⟩) :
    ∃ s1, doXN L i k s = .ok s1 ∧
      s1.mem = addF σ (fun c p => f c p + pt .jx ⟨L.i0 + i, 0, L.k0 + k⟩ (contrib2 L i k .jx) c p) ∧
      (i < L.xh → s1.sdx i k = PX2 L i k) ∧ s1.sdz = s.sdz ∧ s1.sx0 = s.sx0 ∧ s1.sz0 = s.sz0 := by
  unfold doXN
  by_cases h : i < L.xh
  · simp only [if_pos h]
    have hv : (if i > L.xl then wX2 L i k + s.sdx (i - 1) k else wX2 L i k) = PX2 L i k :=
      acc_step hi (fun a => wX2 L a k) (fun h' => hx h' h.le)
    simp only [wX2] at hv
    rw [hv, hm, bumpMem_ok hb]
    refine ⟨_, rfl, ?_, fun _ => by simp, rfl, rfl, rfl⟩
    simp only [contrib2, if_pos h]
  · simp only [if_neg h]
    refine ⟨s, rfl, ?_, fun h' => (h h').elim, rfl, rfl, rfl⟩
    rw [hm]
    exact addF_skip (by simp [contrib2, if_neg h])

theorem doZN_ok {L : Loc2} {σ : Mem} {f : Comp → I3 → ℝ} {i k : ℤ} {s : AccN} (hk : L.zl ≤ k) (hm : s.mem = addF σ f)
    (hz : L.zl < k → k ≤ L.zh → s.sdz i (k - 1) = PZ2 L i (k - 1))
    (hb : InBox (σ .jz).lo (σ .jz).hi ⟨L.i0 + i, 0, L.k0 + k⟩) :
    ∃ s1, doZN L i k s = .ok s1 ∧
      s1.mem = addF σ (fun c p => f c p + pt .jz ⟨L.i0 + i, 0, L.k0 + k⟩ (contrib2 L i k .jz) c p) ∧
      (k < L.zh → s1.sdz i k = PZ2 L i k) ∧ (∀ a b, (a, b) ≠ (i, k) → s1.sdz a b = s.sdz a b) ∧ s1.sdx = s.sdx ∧
      s1.sx0 = s.sx0 ∧ s1.sz0 = s.sz0 := by
  unfold doZN
  by_cases h : k < L.zh
  · simp only [if_pos h]
    have hv : (if k > L.zl then wZ2 L i k + s.sdz i (k - 1) else wZ2 L i k) = PZ2 L i k :=
      acc_step hk (fun c => wZ2 L i c) (fun h' => hz h' h.le)
    simp only [wZ2] at hv
    rw [hv, hm, bumpMem_ok hb]
    refine ⟨_, rfl, ?_, fun _ => by simp, ?_, rfl, rfl, rfl⟩
    · simp only [contrib2, if_pos h]
    · intro a b hab
      show Function.update s.sdz i _ a b = _
      by_cases ha : a = i
      · subst ha
        rw [Function.update_self, Function.update_of_ne]
        rintro rfl
        exact hab rfl
      · rw [Function.update_of_ne ha]
  · simp only [if_neg h]
    refine ⟨s, rfl, ?_, fun h' => (h h').elim, fun _ _ _ => rfl, rfl, rfl, rfl⟩
    rw [hm]
    exact addF_skip (by simp [contrib2, if_neg h])

theorem cellN_ok {D : Dims} {L : Loc2} {σ : Mem} (hl : LocOk2 D L) (hc : Covers2 L σ) {i k : ℤ} (hr : InR2 L i k) {s : AccN}
    (I : InvN L σ i k s) : ∃ s', cellN D L i k s = .ok s' ∧ InvN L σ (i + 1) k s' := by
  obtain ⟨r1, r2, r5, r6⟩ := id hr
  obtain ⟨l1, l2, l5, l6⟩ := hl
  obtain ⟨s1, e1, m1, x1, a1, a2, a3⟩ := doXN_ok (s := s) r1 I.mem I.x (hc i k hr .jx (by simp))
  have e2 := addY_ok (f := fun c p => F2 L i k c p + pt .jx ⟨L.i0 + i, 0, L.k0 + k⟩ (contrib2 L i k .jx) c p)
    (hc i k hr .jy (by simp))
  rw [← m1] at e2
  obtain ⟨s3, e3, m3, z3, y3, c1, c2, c3⟩ := doZN_ok (f := fun c p => F2 L i k c p + pt .jx ⟨L.i0 + i, 0, L.k0 + k⟩ (contrib2 L i k .jx) c p +
      pt .jy ⟨L.i0 + i, 0, L.k0 + k⟩ (contrib2 L i k .jy) c p) (i := i) (s := { s1 with mem := addF σ (fun c p =>
      F2 L i k c p + pt .jx ⟨L.i0 + i, 0, L.k0 + k⟩ (contrib2 L i k .jx) c p +
      pt .jy ⟨L.i0 + i, 0, L.k0 + k⟩ (contrib2 L i k .jy) c p) }) r5 rfl
    (fun p q => by show s1.sdz i _ = _; rw [a1]; exact I.z1 i r1 r2 p q) (hc i k hr .jz (by simp))
  refine ⟨s3, ?_, ?_⟩
  · unfold cellN
    rw [if_pos ⟨by omega, by omega, by omega, by omega⟩, e1]
    simp only [except_bind_ok]
    rw [e2]
    simp only [except_bind_ok]
    rw [e3]
  · refine ⟨?_, ?_, ?_, ?_, ?_, ?_⟩
    · rw [m3]
      congr 1
      funext c p
      rw [F2_step L hr c p]
    · intro h1 h2
      rw [c1]
      show s1.sdx _ _ = _
      rw [show i + 1 - 1 = i by ring, x1 (by omega)]
    · intro a h1 h2 h3
      by_cases ha : a = i
      · subst ha; exact z3 h3
      · rw [y3 a k (by simp [ha])]
        show s1.sdz a k = _
        rw [a1]
        exact I.z a h1 (by omega) h3
    · intro a h1 h2 h3 h4
      rw [y3 a (k - 1) (by simp)]
      show s1.sdz a _ = _
      rw [a1]
      exact I.z1 a h1 h2 h3 h4
    · rw [c2]
      show s1.sx0 = _
      rw [a2, I.sx0]
    · rw [c3]
      show s1.sz0 = _
      rw [a3, I.sz0]

theorem planeN_ok {D : Dims} {L : Loc2} {s : AccN} (hl : LocOk2 D L) (hc : Covers2 L s.mem) (hx : L.xl ≤ L.xh)
    (hz : L.zl ≤ L.zh) (h1 : s.sx0 = L.sx0) (h2 : s.sz0 = L.sz0) :
    ∃ s', planeN D L s = .ok s' ∧ s'.mem = addF s.mem (FF2 L) ∧ s'.sx0 = L.sx0 ∧ s'.sz0 = L.sz0 := by
  obtain ⟨s1, e1, I1⟩ := foldlM_irange_inv
    (body := fun (s : AccN) (k : ℤ) => (irange L.xl L.xh).foldlM (fun (s : AccN) (i : ℤ) => cellN D L i k s) s)
    (fun k s' => InvN L s.mem L.xl k s') _ L.zh (lo := L.zl) rfl (by omega)
    (fun k t g1 g2 I => by
      obtain ⟨s1, e1, I1⟩ := foldlM_irange_inv (body := fun (s : AccN) (i : ℤ) => cellN D L i k s)
        (fun i t => InvN L s.mem i k t) _ L.xh rfl (by omega)
        (fun i s h1 h2 I => cellN_ok hl hc ⟨h1, h2, g1, g2⟩ I) t I
      refine ⟨s1, e1, ?_, fun h => by omega, fun a h1 h2 => by omega, ?_, I1.sx0, I1.sz0⟩
      · rw [I1.mem, F2_row]
      · intro a h1 h2 h3 h4
        rw [show k + 1 - 1 = k by ring]
        exact I1.z a h1 (by omega) (by omega)) s (by
      refine ⟨?_, fun h => by omega, fun a h1 h2 => by omega, fun a h1 h2 h3 => by omega, h1, h2⟩
      rw [F2_start, addF_zero])
  refine ⟨s1, e1, ?_, I1.sx0, I1.sz0⟩
  rw [I1.mem, F2_end]

end Picsar.Deposition2d
