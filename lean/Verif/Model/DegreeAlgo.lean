import Verif.Model.Vec
import Verif.Model.KnotVector

/-! # Model of `src/Algorithm/DegreeAlgo.cpp` -/

namespace Nurbs
namespace DegreeAlgo

variable {K : Type} [Zero K] [One K] [Add K] [Sub K] [Mul K] [Div K] [Neg K] [NatCast K] [IntCast K] [LinearOrder K]

/-- The table of Bezier degree elevation coefficients – DegreeAlgo.cpp:25-46. -/
def makeBezalfs (degree times : Int) : M (List (List K)) := do
  let ph := degree + times
  let ph2 := ph.tdiv 2
  let bezalfs ← vnew (degree + times + 1) (← vnew (degree + 1) (0 : K))
  let bezalfs ← mset bezalfs ph degree 1
  let bezalfs ← mset bezalfs 0 0 1
  let bezalfs ← forLe 1 ph2 (fun i bezalfs => do
    let inv ← fdiv (1 : K) ((← Binomial ph i : Int) : K)
    let mpi := min degree i
    forLe (max 0 (i - times)) mpi (fun j bezalfs => do
      mset bezalfs i j (inv * ((← Binomial degree j : Int) : K) * ((← Binomial times (i - j) : Int) : K)))
      bezalfs) bezalfs
  forLe (ph2 + 1) (ph - 1) (fun i bezalfs => do
    let mpi := min degree i
    forLe (max 0 (i - times)) mpi (fun j bezalfs => do
      mset bezalfs i j (← mget bezalfs (ph - i) (degree - j))) bezalfs) bezalfs

/-- Variables that live across iterations of the main loop – DegreeAlgo.cpp:48-64. -/
structure State (K : Type) where
  mh : Int
  kind : Int
  r : Int
  a : Int
  b : Int
  cind : Int
  ua : K
  Qw : List (Vec4 K)
  Uh : List K
  bpts : List (Vec4 K)
  nextbpts : List (Vec4 K)
  ebpts : List (Vec4 K)

/-- The knot-insertion part turning the current span into a Bezier segment – DegreeAlgo.cpp:83-102;
state (`bpts`, `nextbpts`). -/
def insertPart (knots : List K) (degree mul r a : Int) (ua ub : K)
    (bpts nextbpts : List (Vec4 K)) : M (List (Vec4 K) × List (Vec4 K)) := do
  if r > 0 then
    let numer := ub - ua
    let alfs ← vnew (degree - 1) (0 : K)
    let alfs ← forGe degree (mul + 1) (fun k alfs => do
      vset alfs (k - mul - 1) (← fdiv numer ((← vget knots (a + k)) - ua))) alfs
    forLe 1 r (fun j (s : List (Vec4 K) × List (Vec4 K)) => do
      let save := r - j
      let sm := mul + j
      let bpts ← forGe degree sm (fun k bpts => do
        let alf ← vget alfs (k - sm)
        vset bpts k (alf • (← vget bpts k) + (1 - alf) • (← vget bpts (k - 1)))) s.1
      let nextbpts ← vset s.2 save (← vget bpts degree)
      return (bpts, nextbpts)) (bpts, nextbpts)
  else return (bpts, nextbpts)

/-- Degree elevation of the Bezier segment – DegreeAlgo.cpp:104-112. -/
def elevatePart (bezalfs : List (List K)) (degree times ph lbz : Int)
    (bpts ebpts : List (Vec4 K)) : M (List (Vec4 K)) :=
  forLe lbz ph (fun i ebpts => do
    let ebpts ← vset ebpts i 0
    let mpi := min degree i
    forLe (max 0 (i - times)) mpi (fun j ebpts => do
      vset ebpts i ((← vget ebpts i) + (← mget bezalfs i j) • (← vget bpts j))) ebpts) ebpts

/-- State of the inner knot-removal loop – DegreeAlgo.cpp:123-125. -/
structure RemState (K : Type) where
  i : Int
  j : Int
  kj : Int
  Qw : List (Vec4 K)
  ebpts : List (Vec4 K)

/-- The update of `Qw[i]` – DegreeAlgo.cpp:129-133. -/
def removeQ (Uh : List K) (cind i : Int) (ua ub : K) (Qw : List (Vec4 K)) : M (List (Vec4 K)) := do
  if i < cind then
    let Uhi ← vget Uh i
    let alf ← fdiv (ub - Uhi) (ua - Uhi)
    vset Qw i (alf • (← vget Qw i) + (1 - alf) • (← vget Qw (i - 1)))
  else return Qw

/-- The update of `ebpts[kj]` – DegreeAlgo.cpp:135-146. -/
def removeE (Uh : List K) (ph kind lbz oldr tr j kj : Int) (ub den bet : K) (ebpts : List (Vec4 K)) :
    M (List (Vec4 K)) := do
  if j ≥ lbz then
    if j - tr ≤ kind - ph + oldr then
      let gam ← fdiv (ub - (← vget Uh (j - tr))) den
      vset ebpts kj (gam • (← vget ebpts kj) + (1 - gam) • (← vget ebpts (kj + 1)))
    else
      vset ebpts kj (bet • (← vget ebpts kj) + (1 - bet) • (← vget ebpts (kj + 1)))
  else return ebpts

/-- Body of `while (j - i > tr)` – DegreeAlgo.cpp:129-150. -/
def removeBody (Uh : List K) (ph kind cind lbz oldr tr : Int) (ua ub den bet : K)
    (s : RemState K) : M (RemState K) := do
  let Qw ← removeQ Uh cind s.i ua ub s.Qw
  let ebpts ← removeE Uh ph kind lbz oldr tr s.j s.kj ub den bet s.ebpts
  return ⟨s.i + 1, s.j - 1, s.kj - 1, Qw, ebpts⟩

/-- The knot-removal part – DegreeAlgo.cpp:114-157. -/
def removePart (Uh : List K) (ph kind cind lbz oldr : Int) (ua ub : K)
    (Qw ebpts : List (Vec4 K)) : M (List (Vec4 K) × List (Vec4 K)) := do
  if oldr > 1 then
    let first := kind - 2
    let last := kind
    let den := ub - ua
    let bet ← fdiv (ub - (← vget Uh (kind - 1))) den
    let (Qw, ebpts, _, _) ← forLt 1 oldr (fun tr (s : List (Vec4 K) × List (Vec4 K) × Int × Int) => do
      let (Qw, ebpts, first, last) := s
      let rs ← whileM ((last - first).toNat + 1) (fun rs => .ok (decide (rs.j - rs.i > tr)))
        (removeBody Uh ph kind cind lbz oldr tr ua ub den bet)
        ⟨first, last, last - kind + 1, Qw, ebpts⟩
      return (rs.Qw, rs.ebpts, first - 1, last + 1)) (Qw, ebpts, first, last)
    return (Qw, ebpts)
  else return (Qw, ebpts)

/-- `while (b < m && Approx(knots[b], knots[b + 1])) b = b + 1;` – DegreeAlgo.cpp:69-72. -/
def skipEqual (knots : List K) (m : Int) (b : Int) : M Int :=
  whileM ((m - b).toNat + 1) (fun b => do
    if b < m then
      return Approx (← vget knots b) (← vget knots (b + 1)) eps6
    else return false) (fun b => .ok (b + 1)) b

/-- Loading the knot `ua` into the new knot vector – DegreeAlgo.cpp:159-166; state (`Uh`, `kind`). -/
def loadKnots (degree ph oldr a kind : Int) (ua : K) (Uh : List K) : M (List K × Int) := do
  if a ≠ degree then
    forLt 0 (ph - oldr) (fun _ (u : List K × Int) => do
      return (← vset u.1 u.2 ua, u.2 + 1)) (Uh, kind)
  else return (Uh, kind)

/-- Loading the control points of the segment – DegreeAlgo.cpp:168-172; state (`Qw`, `cind`). -/
def loadPoints (lbz rbz cind : Int) (ebpts Qw : List (Vec4 K)) : M (List (Vec4 K) × Int) :=
  forLe lbz rbz (fun j (q : List (Vec4 K) × Int) => do
    return (← vset q.1 q.2 (← vget ebpts j), q.2 + 1)) (Qw, cind)

/-- Setting up `bpts` for the next segment – DegreeAlgo.cpp:176-183. -/
def nextSegment (points : List (Vec4 K)) (degree r b : Int) (bpts nextbpts : List (Vec4 K)) :
    M (List (Vec4 K)) := do
  let bpts ← forLt 0 r (fun j bpts => do vset bpts j (← vget nextbpts j)) bpts
  forLe r degree (fun j bpts => do vset bpts j (← vget points (b - degree + j))) bpts

/-- Body of the main loop – DegreeAlgo.cpp:68-195. -/
def mainBody (knots : List K) (points : List (Vec4 K)) (bezalfs : List (List K))
    (degree times m : Int) (s : State K) : M (State K) := do
  let ph := degree + times
  let ii := s.b
  let b ← skipEqual knots m s.b
  let mul := b - ii + 1
  let mh := s.mh + mul + times
  let ub ← vget knots b
  let oldr := s.r
  let r := degree - mul
  let lbz : Int := if oldr > 0 then (oldr + 2).tdiv 2 else 1
  let rbz : Int := if r > 0 then ph - (r + 1).tdiv 2 else ph
  let (bpts, nextbpts) ← insertPart knots degree mul r s.a s.ua ub s.bpts s.nextbpts
  let ebpts ← elevatePart bezalfs degree times ph lbz bpts s.ebpts
  let (Qw, ebpts) ← removePart s.Uh ph s.kind s.cind lbz oldr s.ua ub s.Qw ebpts
  let (Uh, kind) ← loadKnots degree ph oldr s.a s.kind s.ua s.Uh
  let (Qw, cind) ← loadPoints lbz rbz s.cind ebpts Qw
  if b < m then
    let bpts ← nextSegment points degree r b bpts nextbpts
    return { mh := mh, kind := kind, r := r, a := b, b := b + 1, cind := cind, ua := ub,
             Qw := Qw, Uh := Uh, bpts := bpts, nextbpts := nextbpts, ebpts := ebpts }
  else
    let Uh ← forLe 0 ph (fun i Uh => vset Uh (kind + i) ub) Uh
    return { mh := mh, kind := kind, r := r, a := s.a, b := b, cind := cind, ua := s.ua,
             Qw := Qw, Uh := Uh, bpts := bpts, nextbpts := nextbpts, ebpts := ebpts }

/-- `NurbsDegreeElevation` – DegreeAlgo.cpp:8-212; returns the new knot vector, points, degree. -/
def NurbsDegreeElevation (knot_vector : KnotVector K) (points : List (Vec4 K)) (degree times : Int) :
    M (KnotVector K × List (Vec4 K) × Int) := do
  massert (times ≥ 1)
  let points := points.map ToHomo
  let knots := knot_vector.Values
  let n : Int := (points.length : Int) - 1
  let m := n + degree + 1
  let ph := degree + times
  let bezalfs : List (List K) ← makeBezalfs degree times
  let ua ← vget knots 0
  let Qw ← vnew ((n + times) * 2) (0 : Vec4 K)
  let Qw ← vset Qw 0 (← vget points 0)
  let Uh ← vnew ((n + times) * 2 + ph + 1) (0 : K)
  let Uh ← forLt 0 (ph + 1) (fun i Uh => vset Uh i ua) Uh
  -- std::vector<Vec4> bpts(points.begin(), points.begin() + degree + 1)
  let bpts ← if 0 ≤ degree + 1 ∧ (degree + 1).toNat ≤ points.length
    then pure (points.take (degree + 1).toNat) else throw .ub
  let nextbpts ← vnew (degree - 1) (0 : Vec4 K)
  let ebpts ← vnew (degree + times + 1) (0 : Vec4 K)
  let s ← whileM ((m - degree).toNat + 1) (fun s => .ok (decide (s.b < m)))
    (mainBody knots points bezalfs degree times m)
    { mh := ph, kind := ph + 1, r := -1, a := degree, b := degree + 1, cind := 1, ua := ua,
      Qw := Qw, Uh := Uh, bpts := bpts, nextbpts := nextbpts, ebpts := ebpts }
  let nh := s.mh - ph - 1
  let Qw ← vresize s.Qw (nh + 1) 0
  let Uh ← vresize s.Uh (s.mh + 1) 0
  let Qw ← mapMList FromHomo Qw
  let kv ← KnotVector.ofValues Uh
  return (kv, Qw, ph)

end DegreeAlgo

export DegreeAlgo (NurbsDegreeElevation)

end Nurbs
