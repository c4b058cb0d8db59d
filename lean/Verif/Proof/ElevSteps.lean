import Verif.Proof.ElevCurve
import Verif.Proof.Removal
import Verif.Model.DegreeAlgo

/-! # The parts of the degree elevation loop -/

set_option linter.unusedSectionVars false

namespace Nurbs
open Nurbs.Spec DegreeAlgo

variable {K : Type} [Field K] [LinearOrder K] [IsStrictOrderedRing K]

theorem forGe_eq_forDn {σ : Type} (hi lo : Int) (n : ℕ) (h : (hi + 1 - lo).toNat = n) (f : Int → σ → M σ) (s : σ) :
    forGe hi lo f s = forDn hi n f s := by simp [forGe, h]

/-- Interpolation of a polar form between two lists that differ in one entry. -/
theorem MultiAffine.comb {V : Type} [AddCommGroup V] [Module K V] {p : ℕ} {F : List K → V} (hF : MultiAffine p F) {a b t : K}
    (rest : List K) {LA LB LT : List K} (hl : rest.length + 1 = p) (hA : LA.Perm (a :: rest)) (hB : LB.Perm (b :: rest))
    (hT : LT.Perm (t :: rest)) (hab : b - a ≠ 0) :
    ((t - a) / (b - a)) • F LB + (1 - (t - a) / (b - a)) • F LA = F LT := by
  have h1 : ∀ {L : List K} {x : K}, L.Perm (x :: rest) → F L = F (x :: rest) := by
    intro L x h
    exact hF.perm _ _ (by rw [h.length_eq]; simpa using hl) h
  rw [h1 hA, h1 hB, h1 hT, hF.interp t rest hl hab]
  have e : 1 - (t - a) / (b - a) = (b - t) / (b - a) := by field_simp; ring
  rw [e, add_comm]

/-- Closes goals "these two lists are permutations of each other" built from `++`, `::`, `replicate` and windows. -/
macro "perm_count" : tactic => `(tactic| (
  rw [List.perm_iff_count]; intro v
  simp only [List.count_append, List.count_cons, List.count_nil, List.count_replicate]
  repeat' split
  all_goals omega))

/-! ### Turning a span into a Bezier segment -/

/-- Bezier point `k` after `j` insertions. -/
def insArg (U : ℕ → K) (p mul a : ℕ) (ua ub : K) (j k : ℕ) : List K :=
  List.replicate (p - k) ua ++ (List.replicate (min j (k - mul)) ub ++ win U a (k - min j (k - mul)))

theorem win_const {U : ℕ → K} {a n : ℕ} {x : K} (h : ∀ i, 1 ≤ i → i ≤ n → U (a + i) = x) : win U a n = List.replicate n x := by
  rw [List.eq_replicate_iff]
  refine ⟨by simp, ?_⟩
  intro b hb
  simp only [win, List.mem_map, List.mem_range] at hb
  obtain ⟨j, hj, rfl⟩ := hb
  rw [show a + 1 + j = a + (1 + j) by omega]
  exact h _ (by omega) (by omega)

theorem insArg_step {U : ℕ → K} {p mul a : ℕ} {ua ub : K} {F : List K → Vec4 K} (hF : MultiAffine p F) {j k : ℕ} (hk : k ≤ p)
    (hjk : mul + (j + 1) ≤ k) (hne : U (a + (k - j)) - ua ≠ 0) :
    ((ub - ua) / (U (a + (k - j)) - ua)) • F (insArg U p mul a ua ub j k) +
      (1 - (ub - ua) / (U (a + (k - j)) - ua)) • F (insArg U p mul a ua ub j (k - 1)) = F (insArg U p mul a ua ub (j + 1) k) := by
  apply hF.comb (List.replicate (p - k) ua ++ (List.replicate j ub ++ win U a (k - j - 1)))
  · simp; omega
  · unfold insArg
    rw [show min j (k - 1 - mul) = j by omega, show p - (k - 1) = p - k + 1 by omega, show k - 1 - j = k - j - 1 by omega]
    perm_count
  · unfold insArg
    rw [show min j (k - mul) = j by omega]
    have : win U a (k - j) = win U a (k - j - 1) ++ [U (a + (k - j))] := by
      obtain ⟨m, hm⟩ : ∃ m, k - j = m + 1 := ⟨k - j - 1, by omega⟩
      rw [hm, Nat.add_sub_cancel, win_succ', show a + 1 + m = a + (m + 1) by omega]
    rw [this]
    perm_count
  · unfold insArg
    rw [show min (j + 1) (k - mul) = j + 1 by omega, show k - (j + 1) = k - j - 1 by omega]
    perm_count
  · exact hne

theorem getElem?_set_if {α : Type} {l : List α} {i j : ℕ} {a : α} (hi : i < l.length) :
    (l.set i a)[j]? = if j = i then some a else l[j]? := by
  rw [List.getElem?_set]
  split_ifs with h1 h2 h2
  · rfl
  · exact absurd h1.symm h2
  · exact absurd h2.symm h1
  · rfl

theorem insertPart_ok {l : List K} {p mul a : ℕ} {ua ub : K} {F : List K → Vec4 K} (hF : MultiAffine p F) (hmul1 : 1 ≤ mul)
    (hl : a + p < l.length) (hrun : ∀ i, 1 ≤ i → i ≤ mul → i ≤ p → kn l (a + i) = ub) (hgt : ∀ i, 1 ≤ i → i ≤ p → ua < kn l (a + i))
    {bpts nextbpts : List (Vec4 K)} (hbl : bpts.length = p + 1) (hnl : nextbpts.length = p - 1)
    (hb : ∀ j ≤ p, bpts[j]? = some (F (List.replicate (p - j) ua ++ win (kn l) a j))) :
    ∃ b' n', insertPart l p mul ((p : Int) - mul) a ua ub bpts nextbpts = .ok (b', n') ∧ b'.length = p + 1 ∧ n'.length = p - 1 ∧
      (∀ k ≤ p, b'[k]? = some (F (List.replicate (p - k) ua ++ List.replicate k ub))) ∧
      (∀ i, i + mul < p → n'[i]? = some (F (List.replicate (p - mul - i) ub ++ win (kn l) a (mul + i)))) := by
  have hfin : ∀ {b' : List (Vec4 K)}, (∀ k ≤ p, b'[k]? = some (F (insArg (kn l) p mul a ua ub (p - mul) k))) →
      ∀ k ≤ p, b'[k]? = some (F (List.replicate (p - k) ua ++ List.replicate k ub)) := by
    intro b' h k hk
    rw [h k hk]
    unfold insArg
    rw [show min (p - mul) (k - mul) = k - mul by omega, win_const (x := ub) (fun i h1 h2 => hrun i h1 (by omega) (by omega)),
      ← List.replicate_add, show k - mul + (k - (k - mul)) = k by omega]
  have hinit : ∀ k ≤ p, bpts[k]? = some (F (insArg (kn l) p mul a ua ub 0 k)) := by
    intro k hk
    rw [hb k hk]
    unfold insArg
    simp
  unfold insertPart
  by_cases hr : ((p : Int) - mul) > 0
  · rw [if_pos hr]
    simp only
    rw [vnew_of _ (p - 1) _ (by omega), bind_ok, forGe_eq_forDn _ _ (p - mul) (by omega)]
    -- the coefficients
    obtain ⟨alfs, e1, hal, halfs⟩ := forDn_inv (fun k alfs => do
        vset alfs (k - mul - 1) (← fdiv (ub - ua) ((← vget l (a + k)) - ua)))
      (fun i (alfs : List K) => alfs.length = p - 1 ∧ ∀ m, p - mul - i ≤ m → m < p - mul →
        alfs[m]? = some ((ub - ua) / (kn l (a + (m + mul + 1)) - ua))) (p - mul) (p : Int) (List.replicate (p - 1) 0)
      ⟨by simp, fun m h1 h2 => absurd h2 (by omega)⟩ (by
        intro i hi s ⟨hsl, hs⟩
        have hk : (p : Int) - i = ((p - i : ℕ) : Int) := by omega
        rw [hk, vget_kn _ _ (a + (p - i)) (by push_cast; omega) (by omega), bind_ok,
          fdiv_ok (sub_pos.mpr (hgt _ (by omega) (by omega))).ne', bind_ok]
        have hidx : (((p - i : ℕ) : Int) - mul - 1) = ((p - i - mul - 1 : ℕ) : Int) := by omega
        rw [hidx, vset_nat _ _ _ (by omega)]
        refine ⟨_, rfl, by simpa using hsl, ?_⟩
        intro m h1 h2
        rw [getElem?_set_if (by omega)]
        split_ifs with h
        · subst h
          rw [show p - i - mul - 1 + mul + 1 = p - i by omega]
        · exact hs m (by omega) h2)
    rw [e1, bind_ok, forLe_eq_forUp _ _ (p - mul) (by omega)]
    obtain ⟨⟨b', n'⟩, e2, hb'l, hn'l, hb', hn'⟩ := forUp_inv (fun j (s : List (Vec4 K) × List (Vec4 K)) => do
        let save := ((p : Int) - mul) - j
        let sm := (mul : Int) + j
        let bpts ← forGe p sm (fun k bpts => do
          let alf ← vget alfs (k - sm)
          vset bpts k (alf • (← vget bpts k) + (1 - alf) • (← vget bpts (k - 1)))) s.1
        let nextbpts ← vset s.2 save (← vget bpts p)
        return (bpts, nextbpts))
      (fun j (s : List (Vec4 K) × List (Vec4 K)) => s.1.length = p + 1 ∧ s.2.length = p - 1 ∧
        (∀ k ≤ p, s.1[k]? = some (F (insArg (kn l) p mul a ua ub j k))) ∧
        (∀ i, p - mul - j ≤ i → i + mul < p → s.2[i]? = some (F (List.replicate (p - mul - i) ub ++ win (kn l) a (mul + i)))))
      (p - mul) 1 (bpts, nextbpts) ⟨hbl, hnl, hinit, fun i h1 h2 => absurd h2 (by omega)⟩ (by
        rintro j hj ⟨b0, n0⟩ ⟨h1, h2, h3, h4⟩
        simp only at h1 h2 h3 h4 ⊢
        rw [forGe_eq_forDn _ _ (p - mul - j) (by omega)]
        obtain ⟨b1, e3, hl3, h5⟩ := forDn_inv (fun k bpts => do
            let alf ← vget alfs (k - ((mul : Int) + (1 + (j : Int))))
            vset bpts k (alf • (← vget bpts k) + (1 - alf) • (← vget bpts (k - 1))))
          (fun i (b : List (Vec4 K)) => b.length = p + 1 ∧ ∀ k ≤ p, b[k]? =
            some (F (insArg (kn l) p mul a ua ub (if p < k + i then j + 1 else j) k))) (p - mul - j) (p : Int) b0
          ⟨h1, fun k hk => by rw [if_neg (by omega)]; exact h3 k hk⟩ (by
            rintro i hi b ⟨hbl', hb'⟩
            have hk : (p : Int) - i = ((p - i : ℕ) : Int) := by omega
            have g1 := hb' (p - i) (by omega)
            have g2 := hb' (p - i - 1) (by omega)
            rw [if_neg (by omega)] at g1 g2
            rw [hk, vget_of _ _ (p - i - (mul + (1 + j))) _ (by omega) (halfs _ (by omega) (by omega)), bind_ok,
              vget_of _ _ (p - i) _ rfl g1, bind_ok, vget_of _ _ (p - i - 1) _ (by omega) g2, bind_ok,
              vset_nat _ _ _ (by omega)]
            refine ⟨_, rfl, by simpa using hbl', ?_⟩
            intro k hk'
            rw [getElem?_set_if (by omega)]
            split_ifs with h h' h'
            · subst h
              rw [show p - i - (mul + (1 + j)) + mul + 1 = p - i - j by omega]
              rw [insArg_step hF (by omega) (by omega) (sub_pos.mpr (hgt _ (by omega) (by omega))).ne']
            · omega
            · have := hb' k hk'
              rw [if_pos (by omega)] at this
              exact this
            · have := hb' k hk'
              rw [if_neg (by omega)] at this
              exact this)
        rw [e3, bind_ok]
        have g3 := h5 p le_rfl
        rw [if_pos (by omega)] at g3
        have hsave : (p : Int) - mul - (1 + (j : Int)) = ((p - mul - (1 + j) : ℕ) : Int) := by omega
        rw [vget_of _ _ p _ rfl g3, bind_ok, hsave, vset_nat _ _ _ (by omega), bind_ok]
        refine ⟨_, rfl, hl3, by simpa using h2, ?_, ?_⟩
        · intro k hk
          rw [h5 k hk]
          split_ifs with h
          · rfl
          · unfold insArg
            rw [show min j (k - mul) = k - mul by omega, show min (j + 1) (k - mul) = k - mul by omega]
        · intro i hi1 hi2
          simp only
          rw [getElem?_set_if (by omega)]
          split_ifs with h
          · subst h
            unfold insArg
            rw [show min (j + 1) (p - mul) = j + 1 by omega, Nat.sub_self, List.replicate_zero, List.nil_append,
              show p - mul - (p - mul - (1 + j)) = j + 1 by omega, show mul + (p - mul - (1 + j)) = p - (j + 1) by omega]
          · exact h4 i (by omega) hi2)
    exact ⟨b', n', e2, hb'l, hn'l, hfin hb', fun i hi => hn' i (by omega) hi⟩
  · rw [if_neg hr]
    refine ⟨bpts, nextbpts, rfl, hbl, hnl, hfin ?_, fun i hi => absurd hi (by omega)⟩
    rw [show p - mul = 0 by omega]
    exact hinit

/-! ### Elevating a Bezier segment -/

theorem elevatePart_ok {p t z : ℕ} {ua ub : K} {F G : List K → Vec4 K} (hE : BezElev p t F G) {bezalfs : List (List K)}
    (hbez : ∀ i ≤ p + t, ∀ j, i - t ≤ j → j ≤ p → j ≤ i → mget bezalfs (i : Int) (j : Int) = .ok (bezCoef K p t i j))
    {bpts ebpts : List (Vec4 K)} (hb : ∀ k ≤ p, bpts[k]? = some (F (List.replicate (p - k) ua ++ List.replicate k ub)))
    (hel : ebpts.length = p + t + 1) :
    ∃ e', elevatePart bezalfs p t ((p : Int) + t) z bpts ebpts = .ok e' ∧ e'.length = p + t + 1 ∧
      ∀ i, z ≤ i → i ≤ p + t → e'[i]? = some (G (List.replicate (p + t - i) ua ++ List.replicate i ub)) := by
  unfold elevatePart
  rw [forLe_eq_forUp _ _ (p + t + 1 - z) (by omega)]
  obtain ⟨e', h1, h2, h3⟩ := forUp_inv (fun i ebpts => do
      let ebpts ← vset ebpts i (0 : Vec4 K)
      let mpi := min (p : Int) i
      forLe (max 0 (i - (t : Int))) mpi (fun j ebpts => do
        vset ebpts i ((← vget ebpts i) + (← mget bezalfs i j) • (← vget bpts j))) ebpts)
    (fun m (e : List (Vec4 K)) => e.length = p + t + 1 ∧ ∀ i, z ≤ i → i < z + m →
      e[i]? = some (G (List.replicate (p + t - i) ua ++ List.replicate i ub))) (p + t + 1 - z) (z : Int) ebpts
    ⟨hel, fun i h1 h2 => absurd h2 (by omega)⟩ (by
      rintro m hm e ⟨g1, g2⟩
      have hi : (z : Int) + m = ((z + m : ℕ) : Int) := by push_cast; rfl
      rw [hi]
      generalize hI : z + m = I at *
      simp only
      rw [vset_nat _ _ _ (by omega), bind_ok]
      have hlo : max 0 ((I : Int) - t) = ((I - t : ℕ) : Int) := by omega
      rw [hlo, forLe_eq_forUp _ _ (min p I + 1 - (I - t)) (by omega)]
      obtain ⟨e1, k1, k2, k3, k4⟩ := forUp_inv (fun j ebpts => do
          vset ebpts (I : Int) ((← vget ebpts (I : Int)) + (← mget bezalfs (I : Int) j) • (← vget bpts j)))
        (fun x (e' : List (Vec4 K)) => e'.length = p + t + 1 ∧ (∀ i, i ≠ I → e'[i]? = e[i]?) ∧
          e'[I]? = some (∑ y ∈ Finset.range x, bezCoef K p t I (I - t + y) •
            F (List.replicate (p - (I - t + y)) ua ++ List.replicate (I - t + y) ub)))
        (min p I + 1 - (I - t)) ((I - t : ℕ) : Int) (e.set I 0)
        ⟨by simpa using g1, fun i hne => by rw [getElem?_set_if (by omega), if_neg hne],
          by rw [getElem?_set_if (by omega), if_pos rfl]; simp⟩ (by
          rintro x hx e' ⟨l1, l2, l3⟩
          have hj : ((I - t : ℕ) : Int) + x = ((I - t + x : ℕ) : Int) := by push_cast; rfl
          rw [hj, vget_of _ _ I _ rfl l3, bind_ok, hbez I (by omega) _ (by omega) (by omega) (by omega), bind_ok,
            vget_of _ _ (I - t + x) _ rfl (hb _ (by omega)), bind_ok, vset_nat _ _ _ (by omega)]
          refine ⟨_, rfl, by simpa using l1, ?_, ?_⟩
          · intro i hne
            rw [getElem?_set_if (by omega), if_neg hne]
            exact l2 i hne
          · rw [getElem?_set_if (by omega), if_pos rfl, Finset.sum_range_succ])
      refine ⟨e1, k1, k2, ?_⟩
      intro i hi1 hi2
      by_cases hiI : i = I
      · subst hiI
        rw [k4, hE ua ub i (by omega)]
        congr 1
        have hsub : ∀ j, (j < i - t ∨ i < j) → bezCoef K p t i j = 0 := by
          intro j hj
          unfold bezCoef
          split_ifs with h
          · rw [Nat.choose_eq_zero_of_lt (show t < i - j by omega)]; simp
          · rfl
        rw [← Finset.sum_subset (s₁ := Finset.Ico (i - t) (min p i + 1)) (s₂ := Finset.range (p + 1))]
        · rw [Finset.sum_Ico_eq_sum_range]
        · intro j hj
          simp only [Finset.mem_Ico, Finset.mem_range] at hj ⊢
          omega
        · intro j hj1 hj2
          simp only [Finset.mem_Ico, Finset.mem_range] at hj1 hj2
          rw [hsub j (by omega), zero_smul]
      · rw [k3 i hiI]
        exact g2 i hi1 (by omega))
  exact ⟨e', h1, h2, fun i hi1 hi2 => h3 i hi1 (by omega)⟩

end Nurbs
