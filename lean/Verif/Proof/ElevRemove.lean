import Verif.Proof.ElevSteps

/-! # The knot removal inside the degree elevation loop -/

set_option linter.unusedSectionVars false

namespace Nurbs
open Nurbs.Spec DegreeAlgo

variable {K : Type} [Field K] [LinearOrder K] [IsStrictOrderedRing K]

/-- The last `f` knots before position `kind`. -/
def tl (U : ℕ → K) (kind f : ℕ) : List K := win U (kind - 1 - f) f

@[simp] theorem tl_length (U : ℕ → K) (kind f : ℕ) : (tl U kind f).length = f := by simp [tl]

@[simp] theorem tl_zero (U : ℕ → K) (kind : ℕ) : tl U kind 0 = [] := by simp [tl, win]

theorem tl_succ (U : ℕ → K) (kind f : ℕ) (h : f + 2 ≤ kind) : tl U kind (f + 1) = U (kind - 1 - f) :: tl U kind f := by
  unfold tl
  rw [win_succ, show kind - 1 - (f + 1) + 1 = kind - 1 - f by omega]

/-- Arguments of control point `kind - 1 - g` with `f` of the knots `ua` replaced by `ub`. -/
def qArg (U : ℕ → K) (ph kind : ℕ) (ua ub : K) (g f : ℕ) : List K :=
  tl U kind g ++ (List.replicate (ph - g - f) ua ++ List.replicate f ub)

/-- Arguments of Bezier point `h` with `f` of the knots `ua` replaced by the knots before them. -/
def eArg (U : ℕ → K) (ph kind : ℕ) (ua ub : K) (h f : ℕ) : List K :=
  List.replicate (ph - h - f) ua ++ (tl U kind f ++ List.replicate h ub)

theorem qArg_step {U : ℕ → K} {ph kind : ℕ} {ua ub : K} {G : List K → Vec4 K} (hG : MultiAffine ph G) {g f : ℕ} (h : g + f + 1 ≤ ph)
    (hk : ph + 1 ≤ kind) (hne : ua - U (kind - 1 - g) ≠ 0) :
    ((ub - U (kind - 1 - g)) / (ua - U (kind - 1 - g))) • G (qArg U ph kind ua ub g f) +
      (1 - (ub - U (kind - 1 - g)) / (ua - U (kind - 1 - g))) • G (qArg U ph kind ua ub (g + 1) f) = G (qArg U ph kind ua ub g (f + 1)) := by
  apply hG.comb (tl U kind g ++ (List.replicate (ph - g - f - 1) ua ++ List.replicate f ub))
  · simp; omega
  · unfold qArg
    rw [tl_succ _ _ _ (by omega), show ph - (g + 1) - f = ph - g - f - 1 by omega]
    perm_count
  · unfold qArg
    perm_count
  · unfold qArg
    rw [show ph - g - (f + 1) = ph - g - f - 1 by omega]
    perm_count
  · exact hne

theorem eArg_step {U : ℕ → K} {ph kind : ℕ} {ua ub : K} {G : List K → Vec4 K} (hG : MultiAffine ph G) {h f : ℕ} (hh : h + f + 1 ≤ ph)
    (hk : ph + 1 ≤ kind) (hne : ub - ua ≠ 0) :
    ((ub - U (kind - 1 - f)) / (ub - ua)) • G (eArg U ph kind ua ub h f) +
      (1 - (ub - U (kind - 1 - f)) / (ub - ua)) • G (eArg U ph kind ua ub (h + 1) f) = G (eArg U ph kind ua ub h (f + 1)) := by
  have e1 : (ub - U (kind - 1 - f)) / (ub - ua) = (U (kind - 1 - f) - ub) / (ua - ub) := by
    rw [← neg_sub, ← neg_sub ua ub, neg_div_neg_eq]
  rw [e1]
  apply hG.comb (List.replicate (ph - h - f - 1) ua ++ (tl U kind f ++ List.replicate h ub))
  · simp; omega
  · unfold eArg
    rw [show ph - (h + 1) - f = ph - h - f - 1 by omega]
    perm_count
  · unfold eArg
    perm_count
  · unfold eArg
    rw [tl_succ _ _ _ (by omega), show ph - h - (f + 1) = ph - h - f - 1 by omega]
    perm_count
  · rw [← neg_sub]; exact neg_ne_zero.mpr hne

/-- What the removal step relies on. -/
structure ElRem (Uh : List K) (ph kind o : ℕ) (ua ub : K) : Prop where
  len : kind ≤ Uh.length
  kp : ph + 1 ≤ kind
  op : o + 2 ≤ ph
  lt : ∀ i < kind, kn Uh i < ua
  ab : ua < ub
  bet : ∀ c, c + 1 + o < ph → c + 2 ≤ (o + 1) / 2 → kn Uh (kind - 1 - c) = kn Uh (kind - 1)

/-- Entries of `Qw` and `ebpts` after `c` steps of round `tr`. -/
structure RemInv (Uh : List K) (ph kind o : ℕ) (ua ub : K) (G : List K → Vec4 K) (Q0 : List (Vec4 K)) (tr c : ℕ)
    (Qw ebpts : List (Vec4 K)) : Prop where
  ql : Qw.length = Q0.length
  el : ebpts.length = ph + 1
  qo : ∀ I, kind ≤ I + (o + 1) / 2 ∨ I + o < kind → Qw[I]? = Q0[I]?
  q : ∀ g, (o + 1) / 2 ≤ g → g ≤ o → Qw[kind - 1 - g]? = some (G (qArg (kn Uh) ph kind ua ub g ((if tr < g + c then tr + 1 else tr) - g)))
  e : ∀ h, o / 2 + 1 ≤ h → h ≤ ph → ebpts[h]? = some (G (eArg (kn Uh) ph kind ua ub h ((if tr < h + c then tr + 1 else tr) - h)))

theorem removeBody_ok {Uh : List K} {ph kind o : ℕ} {ua ub : K} (hc : ElRem Uh ph kind o ua ub) {G : List K → Vec4 K} (hG : MultiAffine ph G)
    {Q0 : List (Vec4 K)} {tr c : ℕ} (htr : tr < o) (hct : 2 * c < tr) {Qw ebpts : List (Vec4 K)}
    (hI : RemInv Uh ph kind o ua ub G Q0 tr c Qw ebpts) (i j kj : Int) (hi : i = (kind : Int) - 1 - tr + c) (hj : j = (kind : Int) + tr - 1 - c)
    (hkj : kj = (tr : Int) - c) :
    ∃ Q' e', removeBody Uh ph kind ((kind : Int) - ((o + 1) / 2 : ℕ)) ((o / 2 + 1 : ℕ) : Int) o tr ua ub (ub - ua)
      ((ub - kn Uh (kind - 1)) / (ub - ua)) ⟨i, j, kj, Qw, ebpts⟩ = .ok ⟨i + 1, j - 1, kj - 1, Q', e'⟩ ∧
      RemInv Uh ph kind o ua ub G Q0 tr (c + 1) Q' e' := by
  obtain ⟨h1, h2, h3, h4, h5, h6⟩ := hc
  obtain ⟨ql, el, qo, q, e⟩ := hI
  have hden : ub - ua ≠ 0 := (sub_pos.mpr h5).ne'
  have hi' : i = ((kind - 1 - (tr - c) : ℕ) : Int) := by omega
  have hkj' : kj = ((tr - c : ℕ) : Int) := by omega
  have hjt : j - tr = ((kind - 1 - c : ℕ) : Int) := by omega
  have hne : ua - kn Uh (kind - 1 - (tr - c)) ≠ 0 := (sub_pos.mpr (h4 _ (by omega))).ne'
  -- the control points
  have hQ : ∃ Q', removeQ Uh ((kind : Int) - ((o + 1) / 2 : ℕ)) i ua ub Qw = .ok Q' ∧ Q'.length = Q0.length ∧ (∀ I, kind ≤ I + (o + 1) / 2 ∨ I + o < kind → Q'[I]? = Q0[I]?) ∧
      ∀ g, (o + 1) / 2 ≤ g → g ≤ o → Q'[kind - 1 - g]? =
        some (G (qArg (kn Uh) ph kind ua ub g ((if tr < g + (c + 1) then tr + 1 else tr) - g))) := by
    unfold removeQ
    by_cases hcond : i < (kind : Int) - ((o + 1) / 2 : ℕ)
    · rw [if_pos hcond]
      have g1 := q (tr - c) (by omega) (by omega)
      have g2 := q (tr - c + 1) (by omega) (by omega)
      rw [if_neg (by omega)] at g1
      rw [if_pos (by omega), show tr + 1 - (tr - c + 1) = tr - (tr - c) by omega] at g2
      have hlt : kind - 1 - (tr - c) < Qw.length := by
        by_contra hcon
        rw [List.getElem?_eq_none (by omega)] at g1
        cases g1
      rw [hi', vget_kn _ _ _ rfl (by omega), bind_ok, fdiv_ok hne, bind_ok, vget_of _ _ _ _ rfl g1, bind_ok,
        vget_of _ _ (kind - 1 - (tr - c + 1)) _ (by omega) g2, bind_ok, vset_nat _ _ _ hlt,
        qArg_step hG (by omega) h2 hne]
      refine ⟨_, rfl, by simpa using ql, ?_, ?_⟩
      · intro I hI
        rw [getElem?_set_if hlt, if_neg (by omega)]
        exact qo I hI
      · intro g hg1 hg2
        rw [getElem?_set_if hlt]
        by_cases hg : g = tr - c
        · subst hg
          rw [if_pos rfl, if_pos (by omega), show tr + 1 - (tr - c) = tr - (tr - c) + 1 by omega]
        · rw [if_neg (by omega), q g hg1 hg2]
          by_cases hcase : tr < g + c
          · rw [if_pos hcase, if_pos (by omega)]
          · rw [if_neg hcase, if_neg (by omega)]
    · rw [if_neg hcond]
      refine ⟨Qw, rfl, ql, qo, ?_⟩
      intro g hg1 hg2
      rw [q g hg1 hg2]
      by_cases hcase : tr < g + c
      · rw [if_pos hcase, if_pos (by omega)]
      · rw [if_neg hcase, if_neg (by omega)]
  -- the Bezier points
  have hE : ∃ e', removeE Uh ph kind ((o / 2 + 1 : ℕ) : Int) o tr j kj ub (ub - ua) ((ub - kn Uh (kind - 1)) / (ub - ua)) ebpts = .ok e' ∧ e'.length = ph + 1 ∧
      ∀ h, o / 2 + 1 ≤ h → h ≤ ph → e'[h]? =
        some (G (eArg (kn Uh) ph kind ua ub h ((if tr < h + (c + 1) then tr + 1 else tr) - h))) := by
    have hold : ∀ {w : K} (_ : o / 2 + 1 ≤ tr - c → w = (ub - kn Uh (kind - 1 - c)) / (ub - ua)), ∃ e',
        (do vset ebpts kj (w • (← vget ebpts kj) + (1 - w) • (← vget ebpts (kj + 1)))) = .ok e' ∧ e'.length = ph + 1 ∧
        ∀ h, o / 2 + 1 ≤ h → h ≤ ph → e'[h]? =
          some (G (eArg (kn Uh) ph kind ua ub h ((if tr < h + (c + 1) then tr + 1 else tr) - h))) := by
      intro w hw
      rw [hkj', vget_nat _ _ (by omega), bind_ok,
        show ((tr - c : ℕ) : Int) + 1 = ((tr - c + 1 : ℕ) : Int) by push_cast; rfl, vget_nat _ _ (by omega), bind_ok,
        vset_nat _ _ _ (by omega)]
      refine ⟨_, rfl, by simpa using el, ?_⟩
      intro h hh1 hh2
      rw [getElem?_set_if (by omega)]
      by_cases hh : h = tr - c
      · subst hh
        have g1 := e (tr - c) hh1 hh2
        have g2 := e (tr - c + 1) (by omega) (by omega)
        rw [if_neg (by omega), show tr - (tr - c) = c by omega, List.getElem?_eq_getElem (by omega), Option.some_inj] at g1
        rw [if_pos (by omega), show tr + 1 - (tr - c + 1) = c by omega, List.getElem?_eq_getElem (by omega), Option.some_inj] at g2
        rw [if_pos rfl, if_pos (by omega), show tr + 1 - (tr - c) = c + 1 by omega, g1, g2, hw hh1,
          eArg_step hG (by omega) h2 hden]
      · rw [if_neg hh, e h hh1 hh2]
        by_cases hcase : tr < h + c
        · rw [if_pos hcase, if_pos (by omega)]
        · rw [if_neg hcase, if_neg (by omega)]
    unfold removeE
    rw [if_pos (by omega)]
    by_cases hcond : j - tr ≤ (kind : Int) - ph + o
    · rw [if_pos hcond, hjt, vget_kn _ _ _ rfl (by omega), bind_ok, fdiv_ok hden, bind_ok]
      exact hold fun _ => rfl
    · rw [if_neg hcond]
      apply hold
      intro hl
      rw [h6 c (by omega) (by omega)]
  obtain ⟨Q', eq1, a1, a2, a3⟩ := hQ
  obtain ⟨e', eq2, b1, b2⟩ := hE
  refine ⟨Q', e', ?_, a1, b1, a2, a3, b2⟩
  unfold removeBody
  simp only
  rw [eq1, bind_ok, eq2, bind_ok]
  rfl

theorem RemInv.round {Uh : List K} {ph kind o : ℕ} {ua ub : K} {G : List K → Vec4 K} {Q0 : List (Vec4 K)} {tr c : ℕ}
    {Qw ebpts : List (Vec4 K)} (h : RemInv Uh ph kind o ua ub G Q0 tr c Qw ebpts) (hc : tr ≤ 2 * c) (htr : tr < o) :
    RemInv Uh ph kind o ua ub G Q0 (tr + 1) 0 Qw ebpts := by
  obtain ⟨ql, el, qo, q, e⟩ := h
  refine ⟨ql, el, qo, ?_, ?_⟩
  · intro g h1 h2
    rw [q g h1 h2]
    congr 3
    split_ifs <;> omega
  · intro g h1 h2
    rw [e g h1 h2]
    congr 3
    split_ifs <;> omega

/-- What the removal leaves behind. -/
theorem removePart_ok {Uh : List K} {ph kind o : ℕ} {ua ub : K} (hc : ElRem Uh ph kind o ua ub) {G : List K → Vec4 K} (hG : MultiAffine ph G)
    {Qw ebpts : List (Vec4 K)} (hel : ebpts.length = ph + 1)
    (hQ : ∀ g, (o + 1) / 2 ≤ g → g ≤ o → Qw[kind - 1 - g]? = some (G (qArg (kn Uh) ph kind ua ub g 0)))
    (hE : ∀ h, o / 2 + 1 ≤ h → h ≤ ph → ebpts[h]? = some (G (List.replicate (ph - h) ua ++ List.replicate h ub))) :
    ∃ Q' e', removePart Uh ph kind ((kind : Int) - ((o + 1) / 2 : ℕ)) ((o / 2 + 1 : ℕ) : Int) o ua ub Qw ebpts = .ok (Q', e') ∧
      Q'.length = Qw.length ∧ e'.length = ph + 1 ∧
      (∀ I, kind ≤ I + (o + 1) / 2 ∨ I + o < kind → Q'[I]? = Qw[I]?) ∧
      (∀ g, (o + 1) / 2 ≤ g → g ≤ o → Q'[kind - 1 - g]? = some (G (qArg (kn Uh) ph kind ua ub g (o - g)))) ∧
      (∀ h, o / 2 + 1 ≤ h → h ≤ ph → e'[h]? = some (G (eArg (kn Uh) ph kind ua ub h (o - h)))) := by
  have hE' : ∀ h, o / 2 + 1 ≤ h → h ≤ ph → ebpts[h]? = some (G (eArg (kn Uh) ph kind ua ub h 0)) := by
    intro h h1 h2
    rw [hE h h1 h2]
    simp [eArg]
  unfold removePart
  by_cases ho : (o : Int) > 1
  · have h2 := hc.kp
    have h3 := hc.op
    have hden : ub - ua ≠ 0 := (sub_pos.mpr hc.ab).ne'
    rw [if_pos ho]
    simp only
    have hlen := hc.len
    rw [vget_kn Uh _ (kind - 1) (by omega) (by omega), bind_ok, fdiv_ok hden, bind_ok, forLt_eq_forUp _ _ (o - 1) (by omega)]
    obtain ⟨⟨Q', e', f', l'⟩, h5, h6, -, -⟩ := forUp_inv (fun tr (s : List (Vec4 K) × List (Vec4 K) × Int × Int) => do
        let rs ← whileM ((s.2.2.2 - s.2.2.1).toNat + 1) (fun rs => .ok (decide (rs.j - rs.i > tr)))
          (removeBody Uh ph kind ((kind : Int) - ((o + 1) / 2 : ℕ)) ((o / 2 + 1 : ℕ) : Int) o tr ua ub (ub - ua)
            ((ub - kn Uh (kind - 1)) / (ub - ua)))
          ⟨s.2.2.1, s.2.2.2, s.2.2.2 - kind + 1, s.1, s.2.1⟩
        return (rs.Qw, rs.ebpts, s.2.2.1 - 1, s.2.2.2 + 1))
      (fun x s => RemInv Uh ph kind o ua ub G Qw (x + 1) 0 s.1 s.2.1 ∧ s.2.2.1 = (kind : Int) - 2 - x ∧ s.2.2.2 = (kind : Int) + x)
      (o - 1) 1 (Qw, ebpts, (kind : Int) - 2, (kind : Int)) (by
        refine ⟨⟨rfl, hel, fun _ _ => rfl, ?_, ?_⟩, by simp, by simp⟩
        · intro g h1 h2
          rw [hQ g h1 h2]
          congr 3
          split_ifs <;> omega
        · intro h h1 h2
          rw [hE' h h1 h2]
          congr 3
          split_ifs <;> omega) (by
        rintro x hx ⟨Q1, e1, f1, l1⟩ ⟨hI, hf, hl⟩
        simp only at hI hf hl ⊢
        obtain ⟨rs, k1, k2, -⟩ := whileM_inv (fun rs : RemState K => .ok (decide (rs.j - rs.i > 1 + (x : Int))))
          (removeBody Uh ph kind ((kind : Int) - ((o + 1) / 2 : ℕ)) ((o / 2 + 1 : ℕ) : Int) o (1 + (x : Int)) ua ub (ub - ua)
            ((ub - kn Uh (kind - 1)) / (ub - ua)))
          (fun c rs => RemInv Uh ph kind o ua ub G Qw (x + 1) c rs.Qw rs.ebpts ∧
            rs.i = (kind : Int) - 1 - ((x + 1 : ℕ) : Int) + c ∧ rs.j = (kind : Int) + ((x + 1 : ℕ) : Int) - 1 - c ∧
            rs.kj = ((x + 1 : ℕ) : Int) - c) ((x + 2) / 2) ((l1 - f1).toNat + 1) ⟨f1, l1, l1 - kind + 1, Q1, e1⟩ (by omega)
          ⟨hI, by simp only; omega, by simp only; omega, by simp only; omega⟩ (by
            rintro c hcx ⟨i, j, kj, Q2, e2⟩ ⟨hI2, g1, g2, g3⟩
            simp only at hI2 g1 g2 g3 ⊢
            refine ⟨by rw [decide_eq_true (by omega)], ?_⟩
            obtain ⟨Q3, e3, m1, m2⟩ := removeBody_ok hc hG (by omega) (by omega) hI2 i j kj g1 g2 g3
            rw [show 1 + (x : Int) = ((x + 1 : ℕ) : Int) by push_cast; ring]
            exact ⟨_, m1, m2, by simp only; omega, by simp only; omega, by simp only; omega⟩) (by
            rintro ⟨i, j, kj, Q2, e2⟩ ⟨hI2, g1, g2, g3⟩
            simp only at g1 g2 g3 ⊢
            rw [decide_eq_false (by omega)])
        rw [k1, bind_ok]
        exact ⟨_, rfl, k2.round (by omega) (by omega), by simp only; omega, by simp only; omega⟩)
    rw [h5]
    simp only [bind_ok]
    obtain ⟨ql, el, qo, q, e⟩ := h6
    refine ⟨Q', e', rfl, ql, el, qo, ?_, ?_⟩
    · intro g h1 h2
      rw [q g h1 h2]
      congr 3
      split_ifs <;> omega
    · intro g h1 h2
      rw [e g h1 h2]
      congr 3
      split_ifs <;> omega
  · rw [if_neg ho]
    refine ⟨Qw, ebpts, rfl, rfl, hel, fun _ _ => rfl, ?_, ?_⟩
    · intro g h1 h2
      rw [hQ g h1 h2, show o - g = 0 by omega]
    · intro h h1 h2
      rw [hE' h h1 h2, show o - h = 0 by omega]

end Nurbs
