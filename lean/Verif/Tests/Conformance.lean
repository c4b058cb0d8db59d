import Verif.Model.Serialization
import Verif.Props.Rounded

/-! # The repository's own unit tests, run on the model

These are tests, not proofs: each `#guard` evaluates the model on the input of a test of `/repo/UnitTest` and
compares with the value that test expects.  They say that the model behaves as the code is expected to behave by
its authors, with `double` arithmetic (`Fl binary53`), including the parameter searches.  No theorem depends on
this file. -/

namespace Nurbs.Conformance

open Nurbs.Props (dbl)

/-- `double` without overflow and underflow. -/
abbrev D := Fl binary53

/-- `std::sqrt` to far more than 53 bits, then rounded. -/
def sqrtD (x : D) : D :=
  let k := 200 + Nat.log2 x.val.den
  dbl (((x.val.num.toNat * 4 ^ k / x.val.den).sqrt : ℚ) / 2 ^ k)

/-- `value == Catch::Approx(expected)`: relative tolerance `100 * FLT_EPSILON`, no absolute one. -/
def approx (value expected : ℚ) (eps : ℚ := 100 / 2 ^ 23) : Bool :=
  decide (max (value - expected) (expected - value) ≤ eps * max expected (-expected))

/-- A `Vec3` of literals. -/
def v3 (x y z : ℚ) : Vec3 D := ⟨dbl x, dbl y, dbl z⟩
/-- A `Vec4` of literals. -/
def p4 (x y z w : ℚ) : Vec4 D := ⟨dbl x, dbl y, dbl z, dbl w⟩
/-- A `KnotVector` of literals. -/
def kv (l : List ℚ) : KnotVector D := ⟨l.map dbl⟩

/-- A result that satisfies a condition. -/
def holds {α : Type} (r : M α) (p : α → Bool) : Bool := match r with
  | .ok a => p a
  | .error _ => false

/-- `REQUIRE` of the three coordinates. -/
def isPoint (r : M (Vec3 D)) (x y z : ℚ) : Bool :=
  holds r fun a => approx a.x.val x && approx a.y.val y && approx a.z.val z

/-- Equality of points as the tests check it. -/
def samePoint (r s : M (Vec3 D)) (eps : ℚ := 100 / 2 ^ 23) : Bool := holds r fun a => holds s fun b =>
  approx a.x.val b.x.val eps && approx a.y.val b.y.val eps && approx a.z.val b.z.val eps

/-- `REQUIRE` of a number. -/
def isReal (r : M D) (x : ℚ) : Bool := holds r fun a => approx a.val x

/-- The parameters all insertion tests use, e.g. CurveUnitTest.cpp:549. -/
def samples : List ℚ := [0, 1/10, 1/5, 3/10, 2/5, 1/2, 11/20, 3/5, 7/10, 4/5, 9/10, 1]

/-- The loop of CurveUnitTest.cpp:549-559. -/
def sameCurve (c c' : Curve D) : Bool := samples.all fun x => samePoint (c.Evaluate (dbl x)) (c'.Evaluate (dbl x))

/-- The loops of SurfaceUnitTest.cpp:579-591. -/
def sameSurface (s s' : Surface D) : Bool :=
  samples.all fun u => samples.all fun v => samePoint (s.Evaluate (dbl u) (dbl v)) (s'.Evaluate (dbl u) (dbl v))

/-! ## MathUnitTest.cpp -/

-- MathUnitTest.cpp:14-23
#guard (List.range 10).map (fun n => (Factorial (n : Int)).toOption) ==
  [1, 1, 2, 6, 24, 120, 720, 5040, 40320, 362880].map some

/-! ## KnotVectorUnitTest.cpp -/

/-- `REQUIRE_NOTHROW` of a constructor call. -/
def okKnots (l : List ℚ) : Bool := holds (KnotVector.ofValues (l.map dbl)) fun _ => true
/-- `REQUIRE_THROWS_AS` of a constructor call. -/
def throwsKnots (l : List ℚ) : Bool := match KnotVector.ofValues (l.map dbl) with
  | .error .throws => true
  | _ => false

-- KnotVectorUnitTest.cpp:15-25
#guard okKnots [0, 0, 0, 1, 1, 1]
#guard okKnots [0, 0, 0, 1/2, 1, 1, 1]
#guard okKnots [0, 1]
#guard okKnots [0, 0, 1, 1]
#guard throwsKnots [0, 0, 1, 2]
#guard throwsKnots [0, 0, 2, 1]

/-- The pairs as numbers. -/
def pairs (k : KnotVector D) : List (ℚ × Int) := k.GetKnotPairs.map fun p => (p.Value.val, p.Multiplicity)

-- KnotVectorUnitTest.cpp:27-52
#guard holds (KnotVector.Uniform 3 10 : M (KnotVector D)) fun k => k.Values.length == 10 && k.IsUniform &&
  match pairs k with
  | [a, b, c, e] => a == (0, 4) && approx b.1 (33333333333 / 100000000000) && b.2 == 1 &&
      approx c.1 (66666666666 / 100000000000) && c.2 == 1 && e == (1, 4)
  | _ => false
-- KnotVectorUnitTest.cpp:54-70
#guard (kv [0, 0, 0, 1/2, 1, 1, 1]).IsUniform
#guard (kv [0, 0, 0, 1, 1, 1]).IsUniform
#guard !(kv [0, 0, 0, 1/10, 3/10, 1, 1, 1]).IsUniform
-- KnotVectorUnitTest.cpp:75-89
#guard pairs (kv [0, 0, 0, 1/2, 1, 1, 1]) == [(0, 3), (1/2, 1), (1, 3)]
-- KnotVectorUnitTest.cpp:92-125
#guard [0, 1/10, 1/5, 3/10, 2/5, 1/2, 3/5, 7/10, 4/5, 9/10, 1].map (fun x =>
  ((kv [0, 0, 0, 3/10, 1/2, 3/4, 1, 1, 1]).FindSpanIndex 2 (dbl x)).toOption) ==
  [2, 2, 2, 3, 3, 4, 4, 4, 5, 5, 5].map some
#guard [0, 1/10, 1/5, 3/10, 2/5, 1/2, 3/5, 7/10, 4/5, 9/10, 1].map (fun x =>
  ((kv [0, 0, 0, 3/10, 1/2, 1/2, 3/4, 1, 1, 1]).FindSpanIndex 2 (dbl x)).toOption) ==
  [2, 2, 2, 3, 3, 5, 5, 5, 6, 6, 6].map some

/-- `InsertKnot` and the checks of its result – KnotVectorUnitTest.cpp:130-141. -/
def inserted (l : List ℚ) (x : ℚ) (index : Int) (ps : List (ℚ × Int)) : Bool :=
  holds ((kv l).InsertKnot (dbl x) 1) fun r => r.2 == index && pairs r.1 == ps.map (fun p => ((dbl p.1).val, p.2)) &&
    r.1.IsValid

-- KnotVectorUnitTest.cpp:128-192
#guard inserted [0, 0, 0, 1, 1, 1] (1/2) 2 [(0, 3), (1/2, 1), (1, 3)]
#guard inserted [0, 0, 0, 1/2, 1, 1, 1] (1/2) 3 [(0, 3), (1/2, 2), (1, 3)]
#guard inserted [0, 0, 0, 1/2, 1, 1, 1] (3/5) 3 [(0, 3), (1/2, 1), (3/5, 1), (1, 3)]
#guard inserted [0, 0, 0, 1/2, 1/2, 1, 1, 1] (3/10) 2 [(0, 3), (3/10, 1), (1/2, 2), (1, 3)]

/-! ## GridUnitTest.cpp -/

/-- GridUnitTest.cpp:12-19 -/
def grid33 : M (Grid ℚ) := do
  forLt 0 3 (fun i g => forLt 0 3 (fun j (g : Grid ℚ) => g.Set i j (i * 3 + j)) g) (← Grid.mk' 3 3 (0 : ℚ))

/-- `REQUIRE` of single cells. -/
def cells (g : Grid ℚ) (l : List (Int × Int × ℚ)) : Bool :=
  l.all fun c => holds (g.Get c.1 c.2.1) fun x => x == c.2.2

-- GridUnitTest.cpp:21-30, 32-41, 43-64
#guard holds (do (← grid33).InsertV 2 (-1)) fun g => cells g [(0, 2, -1), (1, 2, -1), (2, 2, -1), (0, 0, 0), (1, 1, 4)]
#guard holds (do (← grid33).InsertU 2 (-2) 77) fun g =>
  cells g [(2, 0, -2), (2, 1, -2), (2, 2, -2), (0, 0, 0), (1, 1, 4)]
#guard holds (do (← (← grid33).InsertV 2 (-1)).InsertU 2 (-2) 77) fun g =>
  cells g [(2, 0, -2), (2, 1, -2), (2, 2, -2), (0, 0, 0), (1, 1, 4)]
-- GridUnitTest.cpp:66-99
#guard holds (do (← grid33).GetU 1) fun l => l == [3, 4, 5]
#guard holds (do (← grid33).GetV 1) fun l => l == [1, 4, 7]
#guard holds (do (← (← grid33).SetU 1 [-1, -2, -3]).GetU 1) fun l => l == [-1, -2, -3]
#guard holds (do (← (← grid33).SetV 1 [-1, -2, -3]).GetV 1) fun l => l == [-1, -2, -3]

/-! ## BSplineBasisUnitTest.cpp -/

/-- BSplineBasisUnitTest.cpp:18, 57 -/
def basis2 : KnotVector D := kv [0, 0, 0, 1/2, 1, 1, 1]
/-- `REQUIRE` of a list. -/
def isList (r : M (List D)) (l : List ℚ) : Bool := holds r fun a =>
  a.length == l.length && (List.zipWith (fun x y => approx x.val y) a l).all id

-- BSplineBasisUnitTest.cpp:16-49
#guard isList (BSplineBasis.Evaluate 2 basis2 (dbl 0)) [1, 0, 0]
#guard isList (BSplineBasis.Evaluate 2 basis2 (dbl 1)) [0, 0, 1]
#guard isList (BSplineBasis.Evaluate 2 basis2 (dbl (1/2))) [1/2, 1/2, 0]

-- BSplineBasisUnitTest.cpp:52-84 (the entries expected to be 0 are only 0 up to the rounding of the test itself)
/-- BSplineBasisUnitTest.cpp:54 -/
def x1 : D := -1 / sqrtD 3
/-- BSplineBasisUnitTest.cpp:55 -/
def conv (x : D) : D := dbl (1/4) * x + dbl (1/4)
#guard holds (do return ((← BSplineBasis.EvaluateDerivative 2 basis2 (conv x1) 1), (← BSplineBasis.EvaluateDerivative 2 basis2 (conv (-x1)) 1)))
  fun (a, b) => a.length == 3 && b.length == 3 && (List.range 3).all fun i => (List.range 3).all fun j =>
    let e : ℚ := ([[1333333/1000000, -1, -333333/1000000], [-1, 1, 0], [-333333/1000000, 0, 333333/1000000]].getD i []).getD j 0
    let r : D := (a.getD i 0 * a.getD j 0 + b.getD i 0 * b.getD j 0) / dbl 8
    approx r.val e || (e == 0 && decide (|r.val| < 1 / 10 ^ 15))

/-! ## GeomSegmentUnitTest.cpp and GeomRectUnitTest.cpp -/

/-- Coordinates. -/
def ofVec3 (p : Vec3 D) : List ℚ := [p.x.val, p.y.val, p.z.val]
/-- Coordinates. -/
def ofVec4 (p : Vec4 D) : List ℚ := [p.x.val, p.y.val, p.z.val, p.w.val]

-- GeomSegmentUnitTest.cpp:17-35
#guard holds (GeomSegment.GetCurve ⟨v3 0 0 0, v3 10 10 10, 1, 2⟩) fun c =>
  c.Degree == 1 && c.ControlPoints.length == 2 && c.Knots.Values.length == 4 &&
  (holds (c.Evaluate (dbl 0)) fun p => ofVec3 p == [0, 0, 0]) && (holds (c.Evaluate (dbl 1)) fun p => ofVec3 p == [10, 10, 10])

-- GeomRectUnitTest.cpp:14-35
#guard holds (GeomRect.GetSurface ⟨v3 0 1 0, v3 1 1 0, v3 0 0 0, v3 1 0 0, 1, 1, 2, 2⟩) fun s =>
  s.DegreeU == 1 && s.DegreeV == 1 && s.KnotsU.Values.length == 4 && s.KnotsV.Values.length == 4 &&
  s.ControlPoints.Count == 4 && [(0, 0), (1, 0), (0, 1), (1, 1)].all fun (u, v) =>
    holds (s.Evaluate (dbl u) (dbl v)) fun p => ofVec3 p == [u, v, 0]

-- GeomRectUnitTest.cpp:37-74
#guard holds (GeomRect.GetSurface { GeomRect.Make (v3 0 0 0) (v3 1 0 0) (v3 0 1 0) (v3 1 1 0) with
    DegreeU := 1, DegreeV := 2, ControlPointCountU := 3, ControlPointCountV := 4 }) fun s =>
  s.DegreeU == 1 && s.DegreeV == 2 && s.KnotsU.Values.length == 5 && s.KnotsV.Values.length == 7 &&
  s.ControlPoints.Count == 12 && ([(0, 0), (1, 0), (0, 1), (1, 1)].all fun (u, v) =>
    holds (s.Evaluate (dbl u) (dbl v)) fun p => ofVec3 p == [u, v, 0]) &&
  (List.range 3).all fun i => (List.range 4).all fun j =>
    holds (s.ControlPoints.Get i j) fun p => ofVec4 p == [(dbl (i / 2)).val, (dbl (j / 3)).val, 0, 1]

/-! ## CurveUnitTest.cpp -/

/-- A curve of literals. -/
def crv (degree : Int) (k : List ℚ) (p : List (Vec4 D)) : Curve D := ⟨degree, kv k, p⟩

/-- CurveUnitTest.cpp:17-28 -/
def parabola : Curve D := crv 2 [0, 0, 0, 1, 1, 1] [p4 0 0 0 1, p4 1 0 0 1, p4 1 1 0 1]
-- CurveUnitTest.cpp:30-73
#guard isPoint (parabola.Evaluate (dbl 0)) 0 0 0
#guard isPoint (parabola.Evaluate (dbl 1)) 1 1 0
#guard isPoint (parabola.Evaluate (dbl 0.5)) 0.75 0.25 0
#guard isPoint (parabola.Evaluate (dbl 0.3)) 0.51 0.09 0
#guard isPoint (parabola.Evaluate (dbl 0.678)) 0.896316 0.459684 0

/-- CurveUnitTest.cpp:77-93 -/
def cubic : Curve D := crv 3 [0, 0, 0, 0, 0.23, 0.67, 1, 1, 1, 1]
  [p4 0 0 0 1, p4 1 0 0 1, p4 1 1 0 1, p4 2 1 0 1, p4 2 (-2) 0 1, p4 0 (-3) 0 1]
-- CurveUnitTest.cpp:94-155
#guard isPoint (cubic.Evaluate (dbl 0)) 0 0 0
#guard isPoint (cubic.Evaluate (dbl 1)) 0 (-3) 0
#guard isPoint (cubic.Evaluate (dbl 0.123)) 0.911390003336650 0.224002988190835 0
#guard isPoint (cubic.Evaluate (dbl 0.345)) 1.24695646619324 0.808711157707757 0
#guard isPoint (cubic.Evaluate (dbl 0.5)) 1.55856931399672 0.748777149009726 0
#guard isPoint (cubic.Evaluate (dbl 0.789)) 1.86924650801601 (-0.950119518113616) 0
#guard isPoint (cubic.Evaluate (dbl 0.987)) 0.227165964922742 (-2.88053915042935) 0

/-- CurveUnitTest.cpp:159-172 -/
def arc : Curve D := crv 2 [0, 0, 0, 1, 1, 1] [p4 0 1 0 2, p4 1 1 0 1, p4 1 0 0 1]
-- CurveUnitTest.cpp:173-234
#guard isPoint (arc.Evaluate (dbl 0)) 0 1 0
#guard isPoint (arc.Evaluate (dbl 1)) 1 0 0
#guard isPoint (arc.Evaluate (dbl 0.123)) 0.130499810923907 0.991448334180266 0
#guard isPoint (arc.Evaluate (dbl 0.345)) 0.399555641083956 0.916708944909991 0
#guard isPoint (arc.Evaluate (dbl 0.5)) 0.6 0.8 0
#guard isPoint (arc.Evaluate (dbl 0.789)) 0.914753269680552 0.404012939902596 0
#guard isPoint (arc.Evaluate (dbl 0.987)) 0.999662057112348 0.0259956067424605 0

-- CurveUnitTest.cpp:238-258
#guard isPoint ((crv 2 [0, 0, 0, 1, 1, 1] [p4 (-1) 0 0 1, p4 1 1 0 1, p4 1 0 0 1]).EvaluateDerivative (dbl 0.5) 1) 2 0 0

/-- CurveUnitTest.cpp:260-273 -/
def quartic : Curve D := crv 4 [0, 0, 0, 0, 0, 0.333, 0.667, 1, 1, 1, 1, 1]
  [p4 0 0 0 1, p4 0.25 0 0 1, p4 0.5 0 0 1, p4 1 0 0 1, p4 1.5 0 0 1, p4 1.75 0 0 1, p4 2 0 0 1]
-- CurveUnitTest.cpp:275-298
#guard isPoint (quartic.EvaluateDerivative (dbl 0) 2) (-13.547321) 0 0
#guard isPoint (quartic.EvaluateDerivative (dbl 0.3050847) 2) 1.197402021 0 0
#guard isPoint (quartic.EvaluateDerivative (dbl 0.5084745763) 2) (-0.057231905282) 0 0

/-- `std::sqrt(2.0) / 2.0` – CurveUnitTest.cpp:302 -/
def k : ℚ := (sqrtD 2 / dbl 2).val
/-- CurveUnitTest.cpp:303-317 -/
def circle : Curve D := crv 2 [0, 0, 0, 0.25, 0.25, 0.5, 0.5, 0.75, 0.75, 1, 1, 1]
  [p4 1 0 0 1, p4 1 1 0 k, p4 0 1 0 1, p4 (-1) 1 0 k, p4 (-1) 0 0 1, p4 (-1) (-1) 0 k, p4 0 (-1) 0 1, p4 1 (-1) 0 k,
   p4 1 0 0 1]
-- CurveUnitTest.cpp:319-334
#guard isPoint (circle.EvaluateDerivative (dbl 0) 1) 0 5.6568542495 0
#guard isPoint (circle.EvaluateDerivative (dbl 0.5) 1) 0 (-5.6568542495) 0

/-- `SearchParameter` with the defaults of Curve.hpp:43-46. -/
def search (c : Curve D) (p : M (Vec3 D)) (init : ℚ := 0.5) (eps : ℚ := 1e-8) : M D := do
  return (← c.SearchParameter sqrtD 600 (← p) (dbl init) (dbl eps) (dbl 512)).1

/-- `REQUIRE(std::abs(u - x) < eps)` -/
def small (r : M D) (x eps : ℚ) : Bool := holds r fun u => decide (|u.val - x| < eps)

-- CurveUnitTest.cpp:352-400
#guard isReal (search parabola (pure (v3 0 0 0))) 0
#guard isReal (search parabola (pure (v3 1 1 0))) 1
#guard isReal (search parabola (pure (v3 0.75 0.25 0))) 0.5
#guard isReal (search parabola (pure (v3 0.51 0.09 0))) 0.3
#guard isReal (search parabola (pure (v3 0.896316 0.459684 0))) 0.678
#guard isReal (search parabola (parabola.Evaluate (dbl 0.00123))) 0.00123
#guard small (search parabola (parabola.Evaluate (dbl 1e-15)) 0 1e-15) 1e-15 1e-2

/-- `BinarySearchParameter` with the defaults of Curve.hpp:48-50. -/
def bisect (c : Curve D) (p : M (Vec3 D)) : M D := do
  return (← c.BinarySearchParameter sqrtD (← p) (dbl 1e-8) 512).1

-- CurveUnitTest.cpp:417-465
#guard small (bisect parabola (pure (v3 0 0 0))) 0 1e-20
#guard isReal (bisect parabola (pure (v3 1 1 0))) 1
#guard isReal (bisect parabola (pure (v3 0.75 0.25 0))) 0.5
#guard isReal (bisect parabola (pure (v3 0.51 0.09 0))) 0.3
#guard isReal (bisect parabola (pure (v3 0.896316 0.459684 0))) 0.678
#guard isReal (bisect parabola (parabola.Evaluate (dbl 0.00123))) 0.00123
#guard small (bisect parabola (parabola.Evaluate (dbl 1e-15))) 1e-15 1e-2
-- CurveUnitTest.cpp:482-529
#guard small (bisect arc (arc.Evaluate (dbl 0))) 0 1e-20
#guard [1, 0.5, 0.3, 0.678, 0.00123].all fun x => isReal (bisect arc (arc.Evaluate (dbl x))) x
#guard small (bisect arc (arc.Evaluate (dbl 1e-15))) 1e-15 1e-2

/-- The knots the tests insert, e.g. CurveUnitTest.cpp:563. -/
def inner : List ℚ := [0.1, 0.2, 0.3, 0.4, 0.5, 0.55, 0.6, 0.7, 0.8, 0.9]

-- CurveUnitTest.cpp:531-582
#guard inner.all fun x => holds (parabola.InsertKnot (dbl x)) (sameCurve parabola)
-- CurveUnitTest.cpp:585-622
#guard inner.all fun x => holds (circle.InsertKnot (dbl x)) (sameCurve circle)
-- CurveUnitTest.cpp:625-667
#guard inner.all fun y => inner.all fun x =>
  holds (do (← circle.InsertKnot (dbl x)).InsertKnot (dbl y)) (sameCurve circle)
-- CurveUnitTest.cpp:670-740
#guard holds (circle.InsertKnotList [dbl 0.2, dbl 0.8]) (sameCurve circle)
#guard holds (circle.InsertKnotList [dbl 0.2, dbl 0.2]) (sameCurve circle)
#guard holds (circle.InsertKnotList [dbl 0.2, dbl 0.2, dbl 0.2]) (sameCurve circle)
-- CurveUnitTest.cpp:742-779
#guard holds (circle.InsertKnotTimes (dbl 0.2) 3) (sameCurve circle)
-- CurveUnitTest.cpp:782-832
#guard holds (circle.InsertKnotTimes (dbl 0.2) 2) fun c => sameCurve circle c &&
  holds (c.RemoveKnot sqrtD (dbl 0.2) 1 (dbl 1e-12)) fun r => r.2 == 1 && sameCurve r.1 c
-- CurveUnitTest.cpp:835-866
#guard holds (circle.ElevateDegree 1) (sameCurve circle)

/-! ## SurfaceUnitTest.cpp -/

/-- SurfaceUnitTest.cpp:16-31 -/
def patch : Surface D := ⟨2, 1, kv [0, 0, 0, 1, 1, 1], kv [0, 0, 1, 1],
  ⟨3, 2, [p4 1 0 0 1, p4 1 1 0 1, p4 0 1 0 2, p4 1 0 1 1, p4 1 1 1 1, p4 0 1 1 2]⟩⟩
-- SurfaceUnitTest.cpp:33-40
#guard isPoint (patch.Evaluate (dbl 0.5) (dbl 0.5)) 0.6 0.8 0.5
-- SurfaceUnitTest.cpp:62-124
#guard isPoint (patch.EvaluateDerivative 0 0 1 0) 0 2 0
#guard isPoint (patch.EvaluateDerivative 0 0 0 1) 0 0 1
#guard isPoint (patch.EvaluateDerivative 0 0 1 1) 0 0 0
#guard isPoint (patch.EvaluateDerivative (dbl 0.5) (dbl 0.5) 1 0) (-1.28) 0.96 0
#guard isPoint (patch.EvaluateDerivative (dbl 0.5) (dbl 0.5) 0 1) 0 0 1
#guard isPoint (patch.EvaluateDerivative 1 1 1 0) (-1) 0 0
#guard isPoint (patch.EvaluateDerivative 1 1 0 1) 0 0 1

/-- `SearchParameter` with the defaults of Surface.hpp:48-52. -/
def search2 (s : Surface D) (p : M (Vec3 D)) (u v : ℚ := 0.5) (eps : ℚ := 1e-8) : M (D × D) := do
  return (← s.SearchParameter sqrtD 600 (← p) (dbl u) (dbl v) (dbl eps) (dbl 512)).1
/-- `REQUIRE` of both parameters. -/
def isPair (r : M (D × D)) (x y : ℚ) : Bool := holds r fun a => approx a.1.val x && approx a.2.val y

-- SurfaceUnitTest.cpp:146-180
#guard isPair (search2 patch (pure (v3 1 0 0))) 0 0
#guard isPair (search2 patch (pure (v3 0 1 1))) 1 1
#guard isPair (search2 patch (pure (v3 0.6 0.8 0.5))) 0.5 0.5
#guard isPair (search2 patch (patch.Evaluate (dbl 0.00123) (dbl 0.123))) 0.00123 0.123
#guard isPair (search2 patch (patch.Evaluate (dbl 0.00123) (dbl 0.999))) 0.00123 0.999

/-- The rectangles of SurfaceUnitTest.cpp:185-204. -/
def rect (x : ℚ) (p q nu nv : Int) : M (Surface D) :=
  GeomRect.GetSurface { GeomRect.Make (v3 x 0 0) (v3 (x + 1) 0 0) (v3 x 2 0) (v3 (x + 1) 2 0) with
    DegreeU := p, DegreeV := q, ControlPointCountU := nu, ControlPointCountV := nv }
/-- SurfaceUnitTest.cpp:213-214 -/
def onEdge (r : M (D × D)) (v : ℚ) : Bool := holds r fun a => decide (|a.1.val - 1e-18| < 1e-16) && approx a.2.val v

-- SurfaceUnitTest.cpp:183-227
#guard [0.0123, 0.33499526089999998].all fun v => onEdge (do
  search2 (← rect 1 3 3 5 5) (do (← rect 0 3 3 5 5).Evaluate 1 (dbl v))) v
-- SurfaceUnitTest.cpp:230-274
#guard [(0.11166508696666666, 0.11), (0.33499526089999998, 0.33)].all fun (v, init) => onEdge (do
  search2 (← rect 1 4 4 10 10) (do (← rect 0 4 4 10 10).Evaluate 1 (dbl v)) 0 init) v
-- SurfaceUnitTest.cpp:277-315
#guard holds (do
  let s1 ← rect 0 4 4 8 9
  let s2 ← rect 1 4 4 9 10
  let r ← search2 s2 (s1.Evaluate 1 (dbl 0.58611363116000004)) 0 0.58611363116000004 1e-12
  return (s1, s2, r)) fun (s1, s2, r) => decide (|r.1.val - 1e-18| < 1e-16) &&
    samePoint (s1.Evaluate 1 (dbl 0.58611363116000004)) (s2.Evaluate r.1 r.2) 1e-10

/-- `SearchParameterOn` with the defaults of Surface.hpp:54-57. -/
def searchOn (s : Surface D) (p : M (Vec3 D)) (dir : Int) (c : ℚ) : M (D × D) := do
  return (← s.SearchParameterOn sqrtD 600 (← p) dir (dbl c) (dbl 0.5) (dbl 1e-8) (dbl 512)).1
/-- `BinarySearchParameterOn` with the defaults of Surface.hpp:60-64. -/
def bisectOn (s : Surface D) (p : M (Vec3 D)) (dir : Int) (c : ℚ) (eps : ℚ := 1e-8) : M (D × D) := do
  return (← s.BinarySearchParameterOn sqrtD 600 (← p) dir (dbl c) (dbl eps) (dbl 512)).1

-- SurfaceUnitTest.cpp:337-371
#guard isPair (searchOn patch (pure (v3 1 0 0)) 0 0) 0 0
#guard isPair (searchOn patch (pure (v3 1 0 0)) 1 0) 0 0
#guard isPair (searchOn patch (pure (v3 0.6 0.8 0.5)) 0 0.5) 0.5 0.5
#guard isPair (searchOn patch (patch.Evaluate 0 (dbl 0.123)) 0 0) 0 0.123
#guard isPair (searchOn patch (patch.Evaluate (dbl 0.123) 0) 1 0) 0.123 0

/-- SurfaceUnitTest.cpp:396-397 -/
def tinyPair (r : M (D × D)) : Bool := holds r fun a => decide (|a.1.val| < 1e-20) && decide (|a.2.val| < 1e-20)
-- SurfaceUnitTest.cpp:393-434
#guard tinyPair (bisectOn patch (pure (v3 1 0 0)) 0 0)
#guard tinyPair (bisectOn patch (pure (v3 1 0 0)) 1 0)
#guard isPair (bisectOn patch (pure (v3 0.6 0.8 0.5)) 0 0.5) 0.5 0.5
#guard isPair (bisectOn patch (patch.Evaluate 0 (dbl 0.123)) 0 0) 0 0.123
#guard isPair (bisectOn patch (patch.Evaluate (dbl 0.123) 0) 1 0) 0.123 0
#guard isPair (bisectOn patch (patch.Evaluate (dbl 0.123) 1) 1 1) 0.123 1

/-- SurfaceUnitTest.cpp:439-518 -/
def sheet : Surface D := ⟨3, 3, kv [0, 0, 0, 0, 0.2, 0.4, 0.6, 0.8, 1, 1, 1, 1],
  kv [0, 0, 0, 0, 0.19999999999999998, 0.39999999999999997, 0.6, 0.7999999999999999, 1, 1, 1, 1],
  ⟨8, 8, [
    p4 (-58852367103/2000000000000000) (753499984741/5000000000000) (1507/16000) 1,
    p4 (6175321418659/1250000000000000000) (1521587224039/10000000000000) (753500315527/10000000000000) 1,
    p4 (576485078669/10000000000000000) (379309224591/2500000000000) (188375208799/5000000000000) 1,
    p4 (481794104219/10000000000000000) (1514366598289/10000000000000) (-11773423537/625000000000) 1,
    p4 (190505260041/10000000000000000) (661482664031/5000000000000) (-2354686959/31250000000) 1,
    p4 (2702707795319/10000000000000000000) (401439479181/5000000000000) (-515087873/3906250000) 1,
    p4 (-5920531127/312500000000000) (38948504869/1250000000000) (-1695374986589/10000000000000) 1,
    p4 (-146162454039/5000000000000000) 0 (-1507/8000) 1,
    p4 (-58852367103/2000000000000000) (653033320109/5000000000000) (1507/16000) 1,
    p4 (9880514269853/2000000000000000000) (527483571/4000000000) (753500315527/10000000000000) 1,
    p4 (576485078669/10000000000000000) (1314938645249/10000000000000) (188375208799/5000000000000) 1,
    p4 (481794104219/10000000000000000) (1312451051851/10000000000000) (-11773423537/625000000000) 1,
    p4 (190505260041/10000000000000000) (1146569950987/10000000000000) (-2354686959/31250000000) 1,
    p4 (540541559063/2000000000000000000) (695828430581/10000000000000) (-515087873/3906250000) 1,
    p4 (-5920531127/312500000000000) (67510741773/2500000000000) (-1695374986589/10000000000000) 1,
    p4 (-146162454039/5000000000000000) 0 (-1507/8000) 1,
    p4 (-58852367103/2000000000000000) (904199981689/10000000000000) (1507/16000) 1,
    p4 (49402571349249/10000000000000000000) (912952334423/10000000000000) (753500315527/10000000000000) 1,
    p4 (576485078669/10000000000000000) (910342139019/10000000000000) (188375208799/5000000000000) 1,
    p4 (481794104219/10000000000000000) (454309979487/5000000000000) (-11773423537/625000000000) 1,
    p4 (190505260041/10000000000000000) (793779196837/10000000000000) (-2354686959/31250000000) 1,
    p4 (2702707795307/10000000000000000000) (481727375017/10000000000000) (-515087873/3906250000) 1,
    p4 (-5920531127/312500000000000) (186952823371/10000000000000) (-1695374986589/10000000000000) 1,
    p4 (-146162454039/5000000000000000) 0 (-1507/8000) 1,
    p4 (-58852367103/2000000000000000) (37674999237/1250000000000) (1507/16000) 1,
    p4 (24701285674613/5000000000000000000) (38039680601/1250000000000) (753500315527/10000000000000) 1,
    p4 (576485078669/10000000000000000) (303447379673/10000000000000) (188375208799/5000000000000) 1,
    p4 (481794104219/10000000000000000) (151436659829/5000000000000) (-11773423537/625000000000) 1,
    p4 (190505260041/10000000000000000) (66148266403/2500000000000) (-2354686959/31250000000) 1,
    p4 (540541559059/2000000000000000000) (20071973959/1250000000000) (-515087873/3906250000) 1,
    p4 (-5920531127/312500000000000) (62317607790403/10000000000000000) (-1695374986589/10000000000000) 1,
    p4 (-146162454039/5000000000000000) 0 (-1507/8000) 1,
    p4 (-58852367103/2000000000000000) (-37674999237/1250000000000) (1507/16000) 1,
    p4 (49402571349203/10000000000000000000) (-38039680601/1250000000000) (753500315527/10000000000000) 1,
    p4 (576485078669/10000000000000000) (-303447379673/10000000000000) (188375208799/5000000000000) 1,
    p4 (481794104219/10000000000000000) (-151436659829/5000000000000) (-11773423537/625000000000) 1,
    p4 (190505260041/10000000000000000) (-66148266403/2500000000000) (-2354686959/31250000000) 1,
    p4 (2702707795283/10000000000000000000) (-20071973959/1250000000000) (-515087873/3906250000) 1,
    p4 (-5920531127/312500000000000) (-31158803895201/5000000000000000) (-1695374986589/10000000000000) 1,
    p4 (-146162454039/5000000000000000) 0 (-1507/8000) 1,
    p4 (-58852367103/2000000000000000) (-904199981689/10000000000000) (1507/16000) 1,
    p4 (49402571349179/10000000000000000000) (-912952334423/10000000000000) (753500315527/10000000000000) 1,
    p4 (576485078669/10000000000000000) (-910342139019/10000000000000) (188375208799/5000000000000) 1,
    p4 (481794104219/10000000000000000) (-454309979487/5000000000000) (-11773423537/625000000000) 1,
    p4 (190505260041/10000000000000000) (-793779196837/10000000000000) (-2354686959/31250000000) 1,
    p4 (270270779527/1000000000000000000) (-481727375017/10000000000000) (-515087873/3906250000) 1,
    p4 (-5920531127/312500000000000) (-186952823371/10000000000000) (-1695374986589/10000000000000) 1,
    p4 (-146162454039/5000000000000000) 0 (-1507/8000) 1,
    p4 (-58852367103/2000000000000000) (-653033320109/5000000000000) (1507/16000) 1,
    p4 (12350642837291/2500000000000000000) (-527483571/4000000000) (753500315527/10000000000000) 1,
    p4 (576485078669/10000000000000000) (-1314938645249/10000000000000) (188375208799/5000000000000) 1,
    p4 (481794104219/10000000000000000) (-1312451051851/10000000000000) (-11773423537/625000000000) 1,
    p4 (190505260041/10000000000000000) (-1146569950987/10000000000000) (-2354686959/31250000000) 1,
    p4 (1351353897631/5000000000000000000) (-695828430581/10000000000000) (-515087873/3906250000) 1,
    p4 (-5920531127/312500000000000) (-67510741773/2500000000000) (-1695374986589/10000000000000) 1,
    p4 (-146162454039/5000000000000000) 0 (-1507/8000) 1,
    p4 (-58852367103/2000000000000000) (-753499984741/5000000000000) (1507/16000) 1,
    p4 (12350642837289/2500000000000000000) (-1521587224039/10000000000000) (753500315527/10000000000000) 1,
    p4 (576485078669/10000000000000000) (-379309224591/2500000000000) (188375208799/5000000000000) 1,
    p4 (481794104219/10000000000000000) (-1514366598289/10000000000000) (-11773423537/625000000000) 1,
    p4 (190505260041/10000000000000000) (-661482664031/5000000000000) (-2354686959/31250000000) 1,
    p4 (1351353897629/5000000000000000000) (-401439479181/5000000000000) (-515087873/3906250000) 1,
    p4 (-5920531127/312500000000000) (-38948504869/1250000000000) (-1695374986589/10000000000000) 1,
    p4 (-146162454039/5000000000000000) 0 (-1507/8000) 1]⟩⟩

-- SurfaceUnitTest.cpp:521-559
#guard [(0, 0, 0, 0), (0, 0, 1, 0), (1, 0, 0, 1), (1, 0.1234567, 0, 1)].all fun (u, v, dir, c) => holds (do
  let point ← sheet.Evaluate (dbl u) (dbl v)
  let r ← bisectOn sheet (pure point) dir c 1e-10
  return (point - (← sheet.Evaluate r.1 r.2)).norm sqrtD) fun n => decide (|n.val| < 1e-10)

/-- SurfaceUnitTest.cpp:576 -/
def inner2 : List ℚ := [0.1, 0.2, 0.345, 0.4, 0.5, 0.55, 0.6, 0.7, 0.8, 0.9]

-- SurfaceUnitTest.cpp:562-593, 681-712
#guard holds (rect 0 3 3 5 5) fun s => inner2.all fun x =>
  holds (s.InsertKnotU (dbl x)) (sameSurface s) && holds (s.InsertKnotV (dbl x)) (sameSurface s)
-- SurfaceUnitTest.cpp:596-633, 715-752
#guard inner2.all fun x =>
  holds (patch.InsertKnotU (dbl x)) (sameSurface patch) && holds (patch.InsertKnotV (dbl x)) (sameSurface patch)
/-- Fewer samples than the test takes; all of them pass as well, but take minutes. -/
def sameSurface' (s s' : Surface D) : Bool := [0, 0.4, 0.55, 1].all fun u => [0, 0.3, 1].all fun v =>
  samePoint (s.Evaluate (dbl u) (dbl v)) (s'.Evaluate (dbl u) (dbl v))

-- SurfaceUnitTest.cpp:636-678, 755-797
#guard inner2.all fun x => inner2.all fun y =>
  holds (do (← patch.InsertKnotU (dbl x)).InsertKnotU (dbl y)) (sameSurface' patch) &&
  holds (do (← patch.InsertKnotV (dbl x)).InsertKnotV (dbl y)) (sameSurface' patch)
-- SurfaceUnitTest.cpp:800-872
#guard inner2.all fun x => inner2.all fun y =>
  holds (do (← patch.InsertKnotU (dbl x)).InsertKnotV (dbl y)) (sameSurface' patch) &&
  holds (do (← patch.InsertKnotV (dbl x)).InsertKnotU (dbl y)) (sameSurface' patch)
-- SurfaceUnitTest.cpp:875-962
#guard [(1, 1), (2, 1), (2, 2)].all fun (m, t) => inner2.all fun x =>
  holds (do (← patch.InsertKnotUTimes (dbl x) m).RemoveKnotU sqrtD (dbl x) t (dbl 1e-12)) fun r =>
    r.2 == t && sameSurface patch r.1
-- SurfaceUnitTest.cpp:965-1021
#guard holds (patch.ElevateDegreeU 1) (sameSurface patch)
#guard holds (patch.ElevateDegreeV 1) (sameSurface patch)

/-! ## Files -/

/-- A newly made curve – Curve.hpp:19-21. -/
def newCurve : Curve F64 := ⟨-1, ⟨[]⟩, []⟩
/-- A newly made surface. -/
def newSurface : Surface F64 := ⟨-1, -1, ⟨[]⟩, ⟨[]⟩, ⟨0, 0, []⟩⟩
/-- Uninitialised memory. -/
def junk : Vec4 F64 := ⟨1, 2, 3, 4⟩
/-- `std::istringstream` -/
def stream (b : Bytes) : Serial.IStream := ⟨b, false⟩

/-- `REQUIRE_THROWS_WITH` (the message is not modelled). -/
def throwsCurve (s : String) : Bool := match (Curve.LoadFromFile junk newCurve (stream (lit s.toList))).1 with
  | .error .throws => true
  | _ => false
/-- `REQUIRE_NOTHROW` and conditions on the object. -/
def loadsCurve (s : String) (p : Curve F64 → Bool) : Bool :=
  match Curve.LoadFromFile junk newCurve (stream (lit s.toList)) with
  | (.ok _, c, _) => p c
  | _ => false
/-- `REQUIRE_THROWS_WITH` (the message is not modelled). -/
def throwsSurface (s : String) : Bool := match (Surface.LoadFromFile junk newSurface (stream (lit s.toList))).1 with
  | .error .throws => true
  | _ => false
/-- `REQUIRE_NOTHROW` and conditions on the object. -/
def loadsSurface (s : String) (p : Surface F64 → Bool) : Bool :=
  match Surface.LoadFromFile junk newSurface (stream (lit s.toList)) with
  | (.ok _, c, _) => p c
  | _ => false
/-- the bits of a decimal literal, by Lean's own conversion -/
def f64 (x : Float) : F64 := BitVec.ofNat 64 x.toBits.toNat
/-- `REQUIRE` of a stored number. -/
def isF64 (r : M F64) (x : Float) : Bool := holds r fun a => a == f64 x

-- CurveUnitTest.cpp:868 "Curve/LoadFromFile - Valid TXT Input": loads
#guard loadsCurve "LIBNURBS TXT CURVE\n*Degree: 3\n*Knots:\n0,0,0,1,2,3,4,4,4\n*ControlPoints:\n1.0 2.0 3.0 1.0,\n4.0 5.0 6.0 1.0,\n7.0 8.0 9.0 1.0,\n" fun o =>
  o.Degree == 3 &&
  o.Knots.Values.length == 9 &&
  o.ControlPoints.length == 3

-- CurveUnitTest.cpp:889 "Curve/LoadFromFile - Missing Header": throws "Invalid file magic"
#guard throwsCurve "\n*Degree: 3\n*Knots:\n0,0,0,1,2,3,4,4,4\n*ControlPoints:\n1.0 2.0 3.0 1.0,\n4.0 5.0 6.0 1.0,\n7.0 8.0 9.0 1.0,\n"

-- CurveUnitTest.cpp:906 "Curve/LoadFromFile - Invalid Magic Number": throws "Invalid file magic"
#guard throwsCurve "INVALIDMAGIC TXT CURVE\n*Degree: 3\n*Knots:\n0,0,0,1,2,3,4,4,4\n*ControlPoints:\n1.0 2.0 3.0 1.0,\n4.0 5.0 6.0 1.0,\n7.0 8.0 9.0 1.0,\n"

-- CurveUnitTest.cpp:923 "Curve/LoadFromFile - Unknown Serialization Mode": throws "Unknown serialization mode"
#guard throwsCurve "LIBNURBS UNKNOWN CURVE\n*Degree: 3\n*Knots:\n0,0,0,1,2,3,4,4,4\n*ControlPoints:\n1.0 2.0 3.0 1.0,\n4.0 5.0 6.0 1.0,\n7.0 8.0 9.0 1.0,\n"

-- CurveUnitTest.cpp:940 "Curve/LoadFromFile - Type Mismatch": throws "Object type mismatch"
#guard throwsCurve "LIBNURBS TXT SURFACE\n*Degree: 3\n*Knots:\n0,0,0,1,2,3,4,4,4\n*ControlPoints:\n1.0 2.0 3.0 1.0,\n4.0 5.0 6.0 1.0,\n7.0 8.0 9.0 1.0,\n"

-- CurveUnitTest.cpp:957 "Curve/LoadFromFile - Invalid Degree Value": throws "Failed to parse Degree value"
#guard throwsCurve "LIBNURBS TXT CURVE\n*Degree: invalid\n*Knots:\n0,0,0,1,2,3,4,4,4\n*ControlPoints:\n1.0 2.0 3.0 1.0,\n4.0 5.0 6.0 1.0,\n"

-- CurveUnitTest.cpp:973 "Curve/LoadFromFile - Invalid Knot Values": throws "Failed to parse knot value"
#guard throwsCurve "LIBNURBS TXT CURVE\n*Degree: 3\n*Knots:\n0,0,invalid,1,2,3,4,4,4\n*ControlPoints:\n1.0 2.0 3.0 1.0,\n4.0 5.0 6.0 1.0,\n"

-- CurveUnitTest.cpp:989 "Curve/LoadFromFile - Invalid Control Point Data": throws "Failed to parse Vec4 from text"
#guard throwsCurve "LIBNURBS TXT CURVE\n*Degree: 3\n*Knots:\n0,0,0,1,2,3,4,4,4\n*ControlPoints:\n1.0 2.0 invalid 1.0,\n4.0 5.0 6.0 1.0,\n"

-- CurveUnitTest.cpp:1005 "Curve/LoadFromFile - Extra Spaces and Formatting": loads
#guard loadsCurve "LIBNURBS     TXT    CURVE\n\n    *Degree:   3\n\n    *Knots:\n    0,  0,0,   1,   2,3, 4,4,4\n\n    *ControlPoints:\n    1.0 2.0 3.0 1.0  ,\n    4.0    5.0 6.0 1.0 ,\n    7.0 8.0 9.0 1.0,\n" fun o =>
  o.Degree == 3 &&
  o.Knots.Values.length == 9 &&
  o.ControlPoints.length == 3

-- CurveUnitTest.cpp:1028 "Curve/LoadFromFile - Missing Key": throws "Content found before any key"
#guard throwsCurve "LIBNURBS TXT CURVE\n3\n*Knots:\n0,0,0,1,2,3,4,4,4\n*ControlPoints:\n1.0 2.0 3.0 1.0,\n"

-- CurveUnitTest.cpp:1043 "Curve/LoadFromFile - Empty File": throws "Failed to read header line"
#guard throwsCurve ""

-- CurveUnitTest.cpp:1052 "Curve/LoadFromFile - Binary Mode Not Implemented": throws "Failed to read Degree"
#guard throwsCurve "LIBNURBS BIN CURVE\n"

-- CurveUnitTest.cpp:1063 "Curve/LoadFromFile - Control Points with Missing Components": throws "Failed to parse Vec4 from text"
#guard throwsCurve "LIBNURBS TXT CURVE\n*Degree: 3\n*Knots:\n0,0,0,1,2,3,4,4,4\n*ControlPoints:\n1.0 2.0 1.0,\n4.0 5.0 6.0 1.0,\n"

-- CurveUnitTest.cpp:1079 "Curve/LoadFromFile - Multiple Degree Entries": throws "Degree should have exactly one value line"
#guard throwsCurve "LIBNURBS TXT CURVE\n*Degree:\n3\n4\n*Knots:\n0,0,0,1,2,3,4,4,4\n*ControlPoints:\n1.0 2.0 3.0 1.0,\n"

-- CurveUnitTest.cpp:1097 "Curve/LoadFromFile - Unrecognized Key": throws "Unknown key encountered"
#guard throwsCurve "LIBNURBS TXT CURVE\n*Degree: 3\n*UnknownKey:\nSomeValue\n*Knots:\n0,0,0,1,2,3,4,4,4\n*ControlPoints:\n1.0 2.0 3.0 1.0,\n"

-- CurveUnitTest.cpp:1114 "Curve/LoadFromFile - Values Spanning Multiple Lines": loads
#guard loadsCurve "LIBNURBS TXT CURVE\n*Degree:\n3\n*Knots:\n0,0,0,\n1,2,3,\n4,4,4\n*ControlPoints:\n1.0 2.0 3.0 1.0,\n4.0 5.0 6.0 1.0,\n7.0 8.0 9.0 1.0,\n" fun o =>
  o.Degree == 3 &&
  o.Knots.Values.length == 9 &&
  o.ControlPoints.length == 3

-- CurveUnitTest.cpp:1155 "Curve/LoadFromFile - Non-numeric Knot Values": throws "Failed to parse knot value"
#guard throwsCurve "LIBNURBS TXT CURVE\n*Degree: 3\n*Knots:\n0,0,0,abc,2,3,4,4,4\n*ControlPoints:\n1.0 2.0 3.0 1.0,\n"

-- CurveUnitTest.cpp:1170 "Curve/LoadFromFile - Missing Colon in Key": throws "Content found before any key"
#guard throwsCurve "LIBNURBS TXT CURVE\n*Degree\n3\n*Knots\n0,0,0,1,2,3,4,4,4\n*ControlPoints\n1.0 2.0 3.0 1.0,\n"

-- SurfaceUnitTest.cpp:1024 "Surface::LoadFromFile - Valid TXT Input": loads
#guard loadsSurface "LIBNURBS TXT SURFACE\n*DegreeU: 3\n*DegreeV: 2\n*KnotsU:\n0, 0, 0, 1, 2, 3, 3, 3\n*KnotsV:\n0, 0, 1, 1\n*ControlPoints:\n4 3\n1.0 2.0 3.0 1.0\n4.0 5.0 6.0 1.0\n7.0 8.0 9.0 1.0\n1.1 2.1 3.1 1.0\n4.1 5.1 6.1 1.0\n7.1 8.1 9.1 1.0\n1.2 2.2 3.2 1.0\n4.2 5.2 6.2 1.0\n7.2 8.2 9.2 1.0\n1.3 2.3 3.3 1.0\n4.3 5.3 6.3 1.0\n7.3 8.3 9.3 1.0\n" fun o =>
  o.DegreeU == 3 &&
  o.DegreeV == 2 &&
  o.KnotsU.Values.length == 8 &&
  o.KnotsV.Values.length == 4 &&
  o.ControlPoints.UCount == 4 &&
  o.ControlPoints.VCount == 3 &&
  o.ControlPoints.Values.length == 12 &&
  isF64 ((o.ControlPoints.Get 0 0).map (·.x)) 1.0 &&
  isF64 ((o.ControlPoints.Get 3 2).map (·.z)) 9.3

-- SurfaceUnitTest.cpp:1070 "Surface::LoadFromFile - Missing Header": throws "Invalid file magic"
#guard throwsSurface "*DegreeU: 3\n*DegreeV: 2\n"

-- SurfaceUnitTest.cpp:1080 "Surface::LoadFromFile - Invalid Magic Number": throws "Invalid file magic"
#guard throwsSurface "INVALIDMAGIC TXT SURFACE\n*DegreeU: 3\n*DegreeV: 2\n"

-- SurfaceUnitTest.cpp:1091 "Surface::LoadFromFile - Unknown Serialization Mode": throws "Unknown serialization mode"
#guard throwsSurface "LIBNURBS UNKNOWN SURFACE\n*DegreeU: 3\n*DegreeV: 2\n"

-- SurfaceUnitTest.cpp:1102 "Surface::LoadFromFile - Type Mismatch": throws "Object type mismatch"
#guard throwsSurface "LIBNURBS TXT CURVE\n*DegreeU: 3\n*DegreeV: 2\n"

-- SurfaceUnitTest.cpp:1113 "Surface::LoadFromFile - Invalid Degrees": throws "Failed to parse DegreeU value"
#guard throwsSurface "LIBNURBS TXT SURFACE\n*DegreeU: invalid\n*DegreeV: 2\n"

-- SurfaceUnitTest.cpp:1124 "Surface::LoadFromFile - Invalid Knot Values": throws "Failed to parse KnotsU value"
#guard throwsSurface "LIBNURBS TXT SURFACE\n*DegreeU: 3\n*DegreeV: 2\n*KnotsU:\n0, 0, invalid, 1, 2, 3, 3, 3\n"

-- SurfaceUnitTest.cpp:1137 "Surface::LoadFromFile - Invalid Control Point Data": throws "ControlPoints count does not match grid dimensions."
#guard throwsSurface "LIBNURBS TXT SURFACE\n*DegreeU: 3\n*DegreeV: 2\n*ControlPoints:\n2 2\n1.0 2.0 invalid 1.0\n4.0 5.0 6.0 1.0\n"

-- SurfaceUnitTest.cpp:1153 "Surface::LoadFromFile - Extra Spaces and Formatting": loads
#guard loadsSurface "LIBNURBS     TXT    SURFACE\n\n    *DegreeU:   3\n\n    *DegreeV:   2\n\n    *KnotsU:\n    0,  0,0,   1,   2,3, 3,3\n\n    *KnotsV:\n    0, 0, 1, 1\n\n    *ControlPoints:\n    4    3\n    1.0 2.0 3.0 1.0\n    4.0    5.0 6.0 1.0\n    7.0 8.0 9.0 1.0\n    1.1 2.1 3.1 1.0\n    4.1 5.1 6.1 1.0\n    7.1 8.1 9.1 1.0\n    1.2 2.2 3.2 1.0\n    4.2 5.2 6.2 1.0\n    7.2 8.2 9.2 1.0\n    1.3 2.3 3.3 1.0\n    4.3 5.3 6.3 1.0\n    7.3 8.3 9.3 1.0\n" fun o =>
  o.DegreeU == 3 &&
  o.DegreeV == 2 &&
  o.KnotsU.Values.length == 8 &&
  o.KnotsV.Values.length == 4 &&
  o.ControlPoints.UCount == 4 &&
  o.ControlPoints.VCount == 3 &&
  o.ControlPoints.Values.length == 12

-- SurfaceUnitTest.cpp:1194 "Surface::LoadFromFile - Missing Key": throws "Content found before any key"
#guard throwsSurface "LIBNURBS TXT SURFACE\n3\n"

-- SurfaceUnitTest.cpp:1204 "Surface::LoadFromFile - Empty File": throws "Failed to read header line"
#guard throwsSurface ""

-- SurfaceUnitTest.cpp:1377 "Surface::LoadFromFile - Unrecognized Key": throws "Unknown key encountered"
#guard throwsSurface "LIBNURBS TXT SURFACE\n*DegreeU: 3\n*DegreeV: 2\n*UnknownKey:\nSomeValue\n"

-- SurfaceUnitTest.cpp:1390 "Surface::LoadFromFile - Values Spanning Multiple Lines": loads
#guard loadsSurface "LIBNURBS TXT SURFACE\n*DegreeU:\n3\n*DegreeV:\n2\n*KnotsU:\n0,0,0,\n1,2,3,\n3,3\n*KnotsV:\n0,0,\n1,1\n*ControlPoints:\n4 3\n1.0 2.0 3.0 1.0\n4.0 5.0 6.0 1.0\n7.0 8.0 9.0 1.0\n1.1 2.1 3.1 1.0\n4.1 5.1 6.1 1.0\n7.1 8.1 9.1 1.0\n1.2 2.2 3.2 1.0\n4.2 5.2 6.2 1.0\n7.2 8.2 9.2 1.0\n1.3 2.3 3.3 1.0\n4.3 5.3 6.3 1.0\n7.3 8.3 9.3 1.0\n" fun o =>
  o.KnotsU.Values.length == 8 &&
  o.KnotsV.Values.length == 4 &&
  o.ControlPoints.Values.length == 12

-- CurveUnitTest.cpp:1121-1139 "Large Number of Control Points" (with 200 points)
#guard loadsCurve ("LIBNURBS TXT CURVE\n*Degree: 3\n*Knots:\n0,0,0,1,2,3,4,4,4\n*ControlPoints:\n" ++
  String.join ((List.range 200).map fun i => s!"{i} {i + 1} {i + 2} 1.0,\n")) fun c => c.ControlPoints.length == 200

/-- CurveUnitTest.cpp:1176-1186, 1215-1225 -/
def savedCurve : Curve F64 := ⟨3, ⟨[0, 0, 0, 1, 2, 3, 4, 4, 4].map f64⟩,
  [⟨f64 1, f64 2, f64 3, f64 1⟩, ⟨f64 4, f64 5, f64 6, f64 1⟩, ⟨f64 7, f64 8, f64 9, f64 1⟩]⟩
-- CurveUnitTest.cpp:1173-1255
#guard [false, true].all fun bin => holds (savedCurve.SaveToFile bin) fun b =>
  match Curve.LoadFromFile junk newCurve (stream b) with
  | (.ok _, c, _) => decide (c.Degree = savedCurve.Degree ∧ c.Knots.Values = savedCurve.Knots.Values ∧
      c.ControlPoints = savedCurve.ControlPoints)
  | _ => false

/-- SurfaceUnitTest.cpp:1214-1236 -/
def savedSurface : Surface F64 := ⟨3, 2, ⟨[0, 0, 0, 1, 2, 3, 3, 3].map f64⟩, ⟨[0, 0, 1, 1].map f64⟩, ⟨4, 3,
  [0, 0.1, 0.2, 0.3].flatMap fun t => [1.0, 4.0, 7.0].map fun x => ⟨f64 (x + t), f64 (x + 1 + t), f64 (x + 2 + t), f64 1⟩⟩⟩
-- SurfaceUnitTest.cpp:1212-1319
#guard [false, true].all fun bin => holds (savedSurface.SaveToFile bin) fun b =>
  match Surface.LoadFromFile junk newSurface (stream b) with
  | (.ok _, s, _) => decide (s.DegreeU = 3 ∧ s.DegreeV = 2 ∧ s.KnotsU.Values = savedSurface.KnotsU.Values ∧
      s.KnotsV.Values = savedSurface.KnotsV.Values ∧ s.ControlPoints.UCount = 4 ∧ s.ControlPoints.VCount = 3 ∧
      s.ControlPoints.Values = savedSurface.ControlPoints.Values)
  | _ => false

end Nurbs.Conformance
