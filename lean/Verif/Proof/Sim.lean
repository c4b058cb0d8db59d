import Verif.Proof.Curve
import Verif.Model.DegreeAlgo
import Verif.Model.KnotRemoval

/-! # Code that treats control points linearly commutes with linear maps

`Except.map f x` is the result `x` with `f` applied; a piece of code commutes with `f` if on mapped input it gives the mapped
result, including the failures. -/

set_option linter.unusedSectionVars false

namespace Nurbs
open Nurbs.Spec

section Generic
variable {α β α' β' : Type}

@[simp] theorem emap_ok (f : α → β) (a : α) : Except.map f (.ok a : M α) = .ok (f a) := rfl
@[simp] theorem emap_err (f : α → β) (e : Err) : Except.map f (.error e : M α) = .error e := rfl
@[simp] theorem emap_pure (f : α → β) (a : α) : Except.map f (pure a : M α) = .ok (f a) := rfl
@[simp] theorem emap_throw (f : α → β) (e : Err) : Except.map f (throw e : M α) = .error e := rfl

theorem sim_bind {x : M α} {x' : M α'} {k : α → M β} {k' : α' → M β'} {f : α → α'} {g : β → β'} (hx : x' = Except.map f x)
    (hk : ∀ a, k' (f a) = Except.map g (k a)) : (x' >>= k') = Except.map g (x >>= k) := by
  subst hx
  cases x with
  | error e => rfl
  | ok a => exact hk a

theorem sim_same {x : M α} {k : α → M β} {k' : α → M β'} {g : β → β'} (hk : ∀ a, k' a = Except.map g (k a)) :
    (x >>= k') = Except.map g (x >>= k) := by
  cases x with
  | error e => rfl
  | ok a => exact hk a

theorem vget_lmap (f : α → β) (l : List α) (i : Int) : vget (l.map f) i = Except.map f (vget l i) := by
  unfold vget
  simp only [List.length_map]
  split_ifs <;> simp

theorem vset_lmap (f : α → β) (l : List α) (i : Int) (a : α) : vset (l.map f) i (f a) = Except.map (List.map f) (vset l i a) := by
  unfold vset
  simp only [List.length_map]
  split_ifs <;> simp [List.map_set]

theorem vnew_lmap (f : α → β) (n : Int) (a : α) : vnew n (f a) = Except.map (List.map f) (vnew n a) := by
  unfold vnew
  split_ifs <;> simp

theorem vresize_lmap (f : α → β) (l : List α) (n : Int) (a : α) :
    vresize (l.map f) n (f a) = Except.map (List.map f) (vresize l n a) := by
  unfold vresize
  split_ifs <;> simp [List.map_take]

theorem vinsert_lmap (f : α → β) (l : List α) (i : Int) (n : ℕ) (a : α) :
    vinsert (l.map f) i n (f a) = Except.map (List.map f) (vinsert l i n a) := by
  unfold vinsert
  simp only [List.length_map]
  split_ifs <;> simp [List.map_take, List.map_drop]

theorem forUp_sim {f : α → β} {F : Int → α → M α} {F' : Int → β → M β} (h : ∀ i s, F' i (f s) = Except.map f (F i s)) :
    ∀ (n : ℕ) (lo : Int) (s : α), forUp lo n F' (f s) = Except.map f (forUp lo n F s) := by
  intro n
  induction n with
  | zero => intro lo s; rfl
  | succ n ih => intro lo s; exact sim_bind (h lo s) fun a => ih _ a

theorem forLe_sim {f : α → β} {F : Int → α → M α} {F' : Int → β → M β} (h : ∀ i s, F' i (f s) = Except.map f (F i s))
    (lo hi : Int) (s : α) : forLe lo hi F' (f s) = Except.map f (forLe lo hi F s) := forUp_sim h _ _ _

theorem forLt_sim {f : α → β} {F : Int → α → M α} {F' : Int → β → M β} (h : ∀ i s, F' i (f s) = Except.map f (F i s))
    (lo hi : Int) (s : α) : forLt lo hi F' (f s) = Except.map f (forLt lo hi F s) := forUp_sim h _ _ _

theorem forDn_sim {f : α → β} {F : Int → α → M α} {F' : Int → β → M β} (h : ∀ i s, F' i (f s) = Except.map f (F i s)) :
    ∀ (n : ℕ) (hi : Int) (s : α), forDn hi n F' (f s) = Except.map f (forDn hi n F s) := by
  intro n
  induction n with
  | zero => intro hi s; rfl
  | succ n ih => intro hi s; exact sim_bind (h hi s) fun a => ih _ a

theorem forGe_sim {f : α → β} {F : Int → α → M α} {F' : Int → β → M β} (h : ∀ i s, F' i (f s) = Except.map f (F i s))
    (hi lo : Int) (s : α) : forGe hi lo F' (f s) = Except.map f (forGe hi lo F s) := forDn_sim h _ _ _

theorem whileM_sim {f : α → β} {c : α → M Bool} {c' : β → M Bool} {F : α → M α} {F' : β → M β} (hc : ∀ s, c' (f s) = c s)
    (h : ∀ s, F' (f s) = Except.map f (F s)) : ∀ (n : ℕ) (s : α), whileM n c' F' (f s) = Except.map f (whileM n c F s) := by
  intro n
  induction n with
  | zero => intro s; rfl
  | succ n ih =>
    intro s
    rw [whileM, whileM, hc]
    refine sim_same fun b => ?_
    split_ifs
    · exact sim_bind (h s) fun a => ih a
    · rfl

theorem mapMList_sim {f : α → α'} {g : β → β'} {F : α → M β} {F' : α' → M β'} (h : ∀ a, F' (f a) = Except.map g (F a)) (l : List α) :
    mapMList F' (l.map f) = Except.map (List.map g) (mapMList F l) := by
  induction l with
  | nil => rfl
  | cons a l ih => exact sim_bind (h a) fun b => sim_bind ih fun bs => rfl

theorem foldMList_sim {f : α → β} {F : β' → α → M α} {F' : β' → β → M β} (h : ∀ i s, F' i (f s) = Except.map f (F i s)) (l : List β') :
    ∀ s, foldMList F' l (f s) = Except.map f (foldMList F l s) := by
  induction l with
  | nil => intro s; rfl
  | cons a l ih => intro s; exact sim_bind (h a s) fun b => ih b

end Generic

variable {K : Type} [Field K] [LinearOrder K] [IsStrictOrderedRing K]

theorem lin2 (L : Vec4 K →ₗ[K] Vec4 K) (a b : K) (v w : Vec4 K) : a • L v + b • L w = L (a • v + b • w) := by
  rw [map_add, map_smul, map_smul]

/-! ### Degree elevation -/

section Elev
open DegreeAlgo

variable (L : Vec4 K →ₗ[K] Vec4 K)

/-- `L` on pairs of lists of points. -/
def pmap2 (L : Vec4 K →ₗ[K] Vec4 K) (s : List (Vec4 K) × List (Vec4 K)) : List (Vec4 K) × List (Vec4 K) := (s.1.map L, s.2.map L)

theorem insertPart_sim (knots : List K) (degree mul r a : Int) (ua ub : K) (bpts nextbpts : List (Vec4 K)) :
    insertPart knots degree mul r a ua ub (bpts.map L) (nextbpts.map L) =
      Except.map (pmap2 L) (insertPart knots degree mul r a ua ub bpts nextbpts) := by
  unfold insertPart
  split_ifs
  · refine sim_same fun alfs => sim_same fun alfs => ?_
    refine forLe_sim (f := pmap2 L) (fun j s => ?_) _ _ (bpts, nextbpts)
    refine sim_bind (f := List.map L) (forGe_sim (f := List.map L) (fun k b => ?_) _ _ s.1) fun b => ?_
    · refine sim_same fun alf => ?_
      refine sim_bind (vget_lmap L b k) fun x => sim_bind (vget_lmap L b _) fun y => ?_
      rw [lin2]
      exact vset_lmap L b k _
    · refine sim_bind (vget_lmap L b _) fun x => ?_
      exact sim_bind (vset_lmap L s.2 _ x) fun y => rfl
  · rfl

theorem elevatePart_sim (bezalfs : List (List K)) (degree times ph lbz : Int) (bpts ebpts : List (Vec4 K)) :
    elevatePart bezalfs degree times ph lbz (bpts.map L) (ebpts.map L) =
      Except.map (List.map L) (elevatePart bezalfs degree times ph lbz bpts ebpts) := by
  unfold elevatePart
  refine forLe_sim (fun i e => ?_) _ _ _
  refine sim_bind (f := List.map L) ?_ fun e => ?_
  · rw [← vset_lmap, map_zero]
  · refine forLe_sim (fun j e => ?_) _ _ _
    refine sim_bind (vget_lmap L e i) fun x => sim_same fun c => sim_bind (vget_lmap L bpts j) fun y => ?_
    rw [← map_smul, ← map_add]
    exact vset_lmap L e i _

theorem removeQ_sim (Uh : List K) (cind i : Int) (ua ub : K) (Qw : List (Vec4 K)) :
    removeQ Uh cind i ua ub (Qw.map L) = Except.map (List.map L) (removeQ Uh cind i ua ub Qw) := by
  unfold removeQ
  split_ifs
  · refine sim_same fun u => sim_same fun alf => ?_
    refine sim_bind (vget_lmap L Qw _) fun x => sim_bind (vget_lmap L Qw _) fun y => ?_
    rw [lin2]
    exact vset_lmap L Qw i _
  · rfl

theorem removeE_sim (Uh : List K) (ph kind lbz oldr tr j kj : Int) (ub den bet : K) (e : List (Vec4 K)) :
    removeE Uh ph kind lbz oldr tr j kj ub den bet (e.map L) = Except.map (List.map L) (removeE Uh ph kind lbz oldr tr j kj ub den bet e) := by
  unfold removeE
  split_ifs
  · refine sim_same fun u => sim_same fun alf => ?_
    refine sim_bind (vget_lmap L e _) fun x => sim_bind (vget_lmap L e _) fun y => ?_
    rw [lin2]
    exact vset_lmap L e kj _
  · refine sim_bind (vget_lmap L e _) fun x => sim_bind (vget_lmap L e _) fun y => ?_
    rw [lin2]
    exact vset_lmap L e kj _
  · rfl

/-- `L` on the points of a state. -/
def remMap (L : Vec4 K →ₗ[K] Vec4 K) (s : RemState K) : RemState K := ⟨s.i, s.j, s.kj, s.Qw.map L, s.ebpts.map L⟩

theorem removeBody_sim (Uh : List K) (ph kind cind lbz oldr tr : Int) (ua ub den bet : K) (s : RemState K) :
    removeBody Uh ph kind cind lbz oldr tr ua ub den bet (remMap L s) =
      Except.map (remMap L) (removeBody Uh ph kind cind lbz oldr tr ua ub den bet s) := by
  unfold removeBody
  exact sim_bind (removeQ_sim L Uh cind s.i ua ub s.Qw) fun q =>
    sim_bind (removeE_sim L Uh ph kind lbz oldr tr s.j s.kj ub den bet s.ebpts) fun e => rfl

theorem removePart_sim (Uh : List K) (ph kind cind lbz oldr : Int) (ua ub : K) (Qw e : List (Vec4 K)) :
    removePart Uh ph kind cind lbz oldr ua ub (Qw.map L) (e.map L) =
      Except.map (pmap2 L) (removePart Uh ph kind cind lbz oldr ua ub Qw e) := by
  unfold removePart
  split_ifs
  · refine sim_same fun u => sim_same fun bet => ?_
    refine sim_bind (f := fun s : List (Vec4 K) × List (Vec4 K) × Int × Int => (s.1.map L, s.2.1.map L, s.2.2.1, s.2.2.2))
      (forLt_sim (f := fun s : List (Vec4 K) × List (Vec4 K) × Int × Int => (s.1.map L, s.2.1.map L, s.2.2.1, s.2.2.2))
        (fun tr s => ?_) _ _ (Qw, e, kind - 2, kind)) fun s => rfl
    obtain ⟨q, e, first, last⟩ := s
    exact sim_bind (whileM_sim (f := remMap L) (fun s => rfl) (fun s => removeBody_sim L Uh ph kind cind lbz oldr tr ua ub _ bet s) _
      ⟨first, last, last - kind + 1, q, e⟩) fun rs => rfl
  · rfl

theorem loadPoints_sim (lbz rbz cind : Int) (e Qw : List (Vec4 K)) : loadPoints lbz rbz cind (e.map L) (Qw.map L) =
    Except.map (fun s : List (Vec4 K) × Int => (s.1.map L, s.2)) (loadPoints lbz rbz cind e Qw) := by
  unfold loadPoints
  refine forLe_sim (f := fun s : List (Vec4 K) × Int => (s.1.map L, s.2)) (fun j q => ?_) _ _ (Qw, cind)
  exact sim_bind (vget_lmap L e j) fun x => sim_bind (vset_lmap L q.1 q.2 x) fun y => rfl

theorem nextSegment_sim (points : List (Vec4 K)) (degree r b : Int) (bpts nextbpts : List (Vec4 K)) :
    nextSegment (points.map L) degree r b (bpts.map L) (nextbpts.map L) =
      Except.map (List.map L) (nextSegment points degree r b bpts nextbpts) := by
  unfold nextSegment
  refine sim_bind (forLt_sim (f := List.map L) (fun j q => ?_) _ _ bpts) fun q => ?_
  · exact sim_bind (vget_lmap L nextbpts j) fun x => vset_lmap L q j x
  · exact forLe_sim (f := List.map L) (fun j q => sim_bind (vget_lmap L points _) fun x => vset_lmap L q j x) _ _ q

/-- `L` on the points of a state. -/
def stMap (L : Vec4 K →ₗ[K] Vec4 K) (s : State K) : State K :=
  { s with Qw := s.Qw.map L, bpts := s.bpts.map L, nextbpts := s.nextbpts.map L, ebpts := s.ebpts.map L }

theorem mainBody_sim (knots : List K) (points : List (Vec4 K)) (bezalfs : List (List K)) (degree times m : Int) (s : State K) :
    mainBody knots (points.map L) bezalfs degree times m (stMap L s) =
      Except.map (stMap L) (mainBody knots points bezalfs degree times m s) := by
  unfold mainBody
  simp only [stMap]
  refine sim_same fun b => sim_same fun ub => ?_
  refine sim_bind (insertPart_sim L knots degree _ _ s.a s.ua ub s.bpts s.nextbpts) ?_
  rintro ⟨bpts, nextbpts⟩
  refine sim_bind (elevatePart_sim L bezalfs degree times _ _ bpts s.ebpts) fun ebpts => ?_
  refine sim_bind (removePart_sim L s.Uh _ s.kind s.cind _ s.r s.ua ub s.Qw ebpts) ?_
  rintro ⟨Qw, ebpts⟩
  refine sim_same ?_
  rintro ⟨Uh, kind⟩
  refine sim_bind (loadPoints_sim L _ _ s.cind ebpts Qw) ?_
  rintro ⟨Qw, cind⟩
  simp only
  split_ifs
  · exact sim_bind (nextSegment_sim L points degree _ b bpts nextbpts) fun x => rfl
  · exact sim_same fun Uh => rfl

/-- Elevation of mapped points; `hpt` relates the maps before and after `ToHomo`. -/
theorem elevation_sim (f : Vec4 K → Vec4 K) (hT : ∀ v, ToHomo (f v) = L (ToHomo v)) (hF : ∀ v, FromHomo (L v) = Except.map f (FromHomo v))
    (kv : KnotVector K) (points : List (Vec4 K)) (degree times : Int) :
    NurbsDegreeElevation kv (points.map f) degree times =
      Except.map (fun s : KnotVector K × List (Vec4 K) × Int => (s.1, s.2.1.map f, s.2.2)) (NurbsDegreeElevation kv points degree times) := by
  unfold NurbsDegreeElevation
  have hpts : (points.map f).map ToHomo = (points.map ToHomo).map L := by
    rw [List.map_map, List.map_map]
    exact List.map_congr_left fun v _ => hT v
  simp only [hpts]
  generalize points.map ToHomo = P
  simp only [List.length_map]
  refine sim_same fun _ => sim_same fun bez => sim_same fun ua => ?_
  refine sim_bind (f := List.map L) (by rw [← vnew_lmap, map_zero]) fun Qw => ?_
  refine sim_bind (vget_lmap L P 0) fun p0 => ?_
  refine sim_bind (vset_lmap L Qw 0 p0) fun Qw => ?_
  refine sim_same fun Uh => sim_same fun Uh => ?_
  by_cases hc : 0 ≤ degree + 1 ∧ (degree + 1).toNat ≤ P.length
  swap
  · rw [if_neg hc, if_neg hc]; rfl
  rw [if_pos hc, if_pos hc]
  refine sim_bind (f := List.map L) (by simp [List.map_take]) fun bpts => ?_
  refine sim_bind (f := List.map L) (by rw [← vnew_lmap, map_zero]) fun nextbpts => ?_
  refine sim_bind (f := List.map L) (by rw [← vnew_lmap, map_zero]) fun ebpts => ?_
  refine sim_bind (whileM_sim (f := stMap L) (fun s => rfl) (fun s => mainBody_sim L kv.Values P bez degree times _ s) _
    { mh := degree + times, kind := degree + times + 1, r := -1, a := degree, b := degree + 1, cind := 1, ua := ua,
      Qw := Qw, Uh := Uh, bpts := bpts, nextbpts := nextbpts, ebpts := ebpts }) fun s => ?_
  refine sim_bind (f := List.map L) (by rw [← vresize_lmap, map_zero]; rfl) fun Qw => ?_
  refine sim_same fun Uh => ?_
  refine sim_bind (mapMList_sim hF Qw) fun Qw => ?_
  exact sim_same fun kv => rfl

end Elev

/-! ### Knot removal -/

section Removal
open KnotRemovalImpl

variable (L : Vec4 K →ₗ[K] Vec4 K)

theorem divM_map (c : K) (v : Vec4 K) : (L v).divM c = Except.map L (v.divM c) := by
  unfold Vec4.divM fdiv
  split_ifs with h
  · rfl
  · simp only [bind_ok, emap_ok]
    have e : ∀ v : Vec4 K, (⟨v.x / c, v.y / c, v.z / c, v.w / c⟩ : Vec4 K) = c⁻¹ • v := by
      intro v
      ext <;> simp [div_eq_inv_mul]
    rw [e, e, map_smul]

/-- `L` on the points of a state. -/
def solveMap (L : Vec4 K →ₗ[K] Vec4 K) (s : SolveState K) : SolveState K := { s with temp := s.temp.map L }

theorem solveBody_sim (knots : List K) (points : List (Vec4 K)) (u : K) (order t : Int) (s : SolveState K) :
    solveBody knots (points.map L) u order t (solveMap L s) = Except.map (solveMap L) (solveBody knots points u order t s) := by
  unfold solveBody
  simp only [solveMap]
  refine sim_same fun a => sim_same fun b => sim_same fun c => sim_same fun alphai => ?_
  refine sim_same fun a => sim_same fun b => sim_same fun c => sim_same fun alphaj => ?_
  refine sim_bind (vget_lmap L points _) fun p => sim_bind (vget_lmap L s.temp _) fun q => ?_
  refine sim_bind (f := L) ?_ fun x => ?_
  · rw [← map_smul, ← map_sub, divM_map]
  refine sim_bind (vset_lmap L s.temp _ x) fun temp => ?_
  refine sim_bind (vget_lmap L points _) fun p => sim_bind (vget_lmap L temp _) fun q => ?_
  refine sim_bind (f := L) ?_ fun x => ?_
  · rw [← map_smul, ← map_sub, divM_map]
  exact sim_bind (vset_lmap L temp _ x) fun temp => rfl

theorem copyBody_sim (temp : List (Vec4 K)) (off : Int) (s : Int × Int × List (Vec4 K)) :
    copyBody (temp.map L) off (s.1, s.2.1, s.2.2.map L) =
      Except.map (fun s : Int × Int × List (Vec4 K) => (s.1, s.2.1, s.2.2.map L)) (copyBody temp off s) := by
  obtain ⟨i, j, pts⟩ := s
  simp only [copyBody]
  exact sim_bind (vget_lmap L temp _) fun x => sim_bind (vset_lmap L pts i x) fun pts =>
    sim_bind (vget_lmap L temp _) fun x => sim_bind (vset_lmap L pts j x) fun pts => rfl

variable (sqrt : K → K) (hN : ∀ v : Vec4 K, (L v).norm sqrt = v.norm sqrt)

include hN in
theorem removalDist_sim (knots : List K) (points : List (Vec4 K)) (u : K) (order t : Int) (s : SolveState K) :
    removalDist sqrt knots (points.map L) u order t (solveMap L s) = removalDist sqrt knots points u order t s := by
  have key : removalDist sqrt knots (points.map L) u order t (solveMap L s) =
      Except.map id (removalDist sqrt knots points u order t s) := by
    obtain ⟨i, j, ii, jj, temp⟩ := s
    show removalDist sqrt knots (points.map L) u order t ⟨i, j, ii, jj, temp.map L⟩ = _
    unfold removalDist
    simp only
    by_cases hc : j - i < t
    · rw [if_pos hc, if_pos hc]
      refine sim_bind (vget_lmap L temp _) fun x => sim_bind (vget_lmap L temp _) fun y => ?_
      rw [← map_sub, hN]; rfl
    · rw [if_neg hc, if_neg hc]
      refine sim_same fun a => sim_same fun b => sim_same fun c => sim_same fun alphai => ?_
      refine sim_bind (vget_lmap L temp _) fun x => sim_bind (vget_lmap L temp _) fun y => ?_
      refine sim_bind (vget_lmap L points _) fun z => ?_
      rw [lin2, ← map_sub, hN]; rfl
  rw [key]
  cases removalDist sqrt knots points u order t s <;> rfl

include hN in
theorem removalLoop_sim (knots : List K) (u tol : K) (order : Int) : ∀ (n : ℕ) (t first last : Int) (points temp : List (Vec4 K)),
    removalLoop sqrt knots u tol order n t first last (points.map L) (temp.map L) =
      Except.map (fun s : Int × List (Vec4 K) => (s.1, s.2.map L)) (removalLoop sqrt knots u tol order n t first last points temp) := by
  intro n
  induction n with
  | zero => intro t first last points temp; rfl
  | succ n ih =>
    intro t first last points temp
    rw [removalLoop, removalLoop]
    simp only
    refine sim_bind (vget_lmap L points _) fun p => sim_bind (vset_lmap L temp _ p) fun temp => ?_
    refine sim_bind (vget_lmap L points _) fun p => sim_bind (vset_lmap L temp _ p) fun temp => ?_
    refine sim_bind (whileM_sim (f := solveMap L) (fun s => rfl) (fun s => solveBody_sim L knots points u order t s) _
      ⟨first, last, 1, last - (first - 1), temp⟩) fun s => ?_
    rw [removalDist_sim L sqrt hN]
    refine sim_same fun dist => ?_
    split_ifs
    · rfl
    · refine sim_bind (whileM_sim (f := fun s : Int × Int × List (Vec4 K) => (s.1, s.2.1, s.2.2.map L)) (fun s => rfl)
        (fun s' => copyBody_sim L s.temp _ s') _ (first, last, points)) ?_
      rintro ⟨i, j, pts⟩
      exact ih _ _ _ _ _

theorem calcTOL_sim (hw : ∀ v : Vec4 K, (L v).w = v.w) (h3 : ∀ v : Vec4 K, (L v).head3.norm sqrt = v.head3.norm sqrt)
    (points : List (Vec4 K)) (eps : K) : CalcTOL sqrt (points.map L) eps = CalcTOL sqrt points eps := by
  unfold CalcTOL
  rw [List.foldl_map]
  simp only [hw, h3]

include hN in
/-- Removal of mapped points. -/
theorem removal_sim (hw : ∀ v : Vec4 K, (L v).w = v.w) (h3 : ∀ v : Vec4 K, (L v).head3.norm sqrt = v.head3.norm sqrt)
    (hT : ∀ v, ToHomo (L v) = L (ToHomo v)) (hF : ∀ v, FromHomo (L v) = Except.map L (FromHomo v))
    (kv : KnotVector K) (points : List (Vec4 K)) (degree : Int) (u : K) (times : Int) (eps : K) :
    KnotRemoval sqrt kv (points.map L) degree u times eps =
      Except.map (fun s : KnotVector K × List (Vec4 K) × Int => (s.1, s.2.1.map L, s.2.2)) (KnotRemoval sqrt kv points degree u times eps) := by
  unfold KnotRemoval
  have hpts : (points.map L).map ToHomo = (points.map ToHomo).map L := by
    rw [List.map_map, List.map_map]
    exact List.map_congr_left fun v _ => hT v
  simp only [hpts]
  generalize points.map ToHomo = P
  simp only [List.length_map, calcTOL_sim L sqrt hw h3]
  refine sim_same fun r => sim_same fun tol => ?_
  refine sim_bind (f := List.map L) (by rw [← vnew_lmap, map_zero]) fun temp => ?_
  refine sim_bind (removalLoop_sim L sqrt hN _ _ _ _ _ _ _ _ P temp) ?_
  rintro ⟨t, pts⟩
  simp only
  split_ifs
  · rfl
  · refine sim_same ?_
    rintro ⟨i, j⟩
    simp only
    refine sim_bind (forLe_sim (f := fun s : List (Vec4 K) × Int => (s.1.map L, s.2)) (fun k s => ?_) _ _ (pts, j)) ?_
    · exact sim_bind (vget_lmap L s.1 k) fun x => sim_bind (vset_lmap L s.1 s.2 x) fun y => rfl
    rintro ⟨pts, j⟩
    simp only [List.length_map]
    refine sim_bind (f := List.map L) (by rw [← vresize_lmap, map_zero]) fun pts => ?_
    refine sim_same fun knots => sim_same fun knots => ?_
    exact sim_bind (mapMList_sim hF pts) fun pts => rfl

end Removal

end Nurbs
