# Formal model of cyanray/libnurbs in Lean 4

## Shape of the model

* `lean/Verif/Model/*.lean` – the code, function by function, as total computable Lean functions in the
  outcome monad `M := Except Err`. `Err` keeps apart the ways in which the C++ can leave the happy path:
  `throws` (C++ exception), `assert` (an `assert` fails), `ub` (out-of-range vector/matrix access, signed
  overflow), `nonfinite` (a floating-point division by zero), `diverge` (loop that never ends / fuel used up).
  Nothing is totalised silently: a vector read outside the vector *is* `ub`, a division by `0` *is* `nonfinite`.
* `lean/Verif/Spec/*.lean` – small independent specifications (textbook Cox–de Boor recursion, NURBS point,
  "clamped knot vector", ...). They do not mention the model's helpers.
* `lean/Verif/Proof/*.lean` – helper lemmas.
* `lean/Verif/Props/*.lean` – only the property theorems, each with a non-vacuity `example`.
* `lean/Verif/Tests/Conformance.lean` – tests, not proofs: the inputs of the repository's own unit tests, run on the model with
  53-bit rounding and compared with the values those tests expect.

`int` is an unbounded `Int` (or `Nat` where the C++ value is provably a size) except in `Binomial` and in
the serialisation code, where 32-bit width is modelled. `Numeric` (= `double`) is an arbitrary linearly ordered
field `K` (executable at `K = ℚ`): **in C09 – C53, C61 – C64 and C76 – C80, C84, C86 – C93, C96 and C98 – C102, C104 – C106, C110, C111, C114 – C117, C119, C120, C122, C123 (but for removal and elevation in C100) arithmetic is exact**; for C68 – C75, C81 – C83, C94, C95, C97 and C121 see *Rounding* below, and C103, C109, C118 and the refutation in C121 have the finite range of `double` as well. Functions that only
compare knots (constructor, `IsValid`, `FindSpanIndex`, `GetKnotPairs`, `FindSpan`, `InsertKnot`, ...) are
modelled over any linear order with 0 and 1, so for them the theorems hold of non-NaN doubles as they are; NaN is
added explicitly for C02. Binary serialisation treats a double as its 64 bits.

## Plan per property

| id | modelled | proof plan |
|----|----------|-----------|
| C01,C05 | constructor, `IsValid` | induction on the list |
| C02 | `ValidateKnots` over numbers + NaN | refutation witness; positive part without NaN is C01 |
| C03,C04 | `GetKnotPairs`, pair constructor | run-length invariant by induction; C04 refuted by witness + exact characterisation |
| C06,C07,C08 | `FindSpanIndex`, `FindSpan`, `InsertKnot` with `upper_bound` as partition point | monotonicity |
| C09 | `Uniform`, `IsUniform`, `DetectDegree` | arithmetic |
| C10 | `IsClamped` | refuted by witness + exact characterisation |
| C11,C12 | `Reverse`, `GetMultiplicity` | list lemmas |
| C13,C14 | `Binomial` with 32-bit check, `Factorial` | loop invariant, `Nat.choose` |
| C15–C17 | `Grid` with in-place loops | loop invariants on flat index; indices out of range by cases: too large ones are refused, negative ones reach another row or are undefined behaviour |
| C18,C19 | `BoundingBox` | order; C19 refuted |
| C20,C21 | `BSplineBasis::Evaluate` imperative loops | loop invariant = triangle, triangle = Cox–de Boor on the span |
| C22 | `EvaluateAll` with `ndu`, `a` scratch rows | derivative of de Boor polynomials |
| C23–C28 | `Curve::Evaluate`, `Transform`, `IsRational` | from C20/C21 |
| C29 | `Curve::EvaluateAll` | Leibniz rule + C22.  Proved for orders up to 29 (`C29_evaluateAll_partial`); false from order 30 on: `Binomial(30,15)` overflows `int` (`C29_every_order_refuted`) |
| C30,C31 | `InsertKnot` (three overloads) | blossom (symmetric multi-affine form) of each span |
| C32–C35, C61 | `KnotRemoval`, `CalcTOL`, `Curve::RemoveKnot` (all rounds, both sweeps, gap layout, compaction, resize) | each round solves the knot-insertion equations from both ends (`RemRel`); layout invariant `Lay`; points preserved through blossoms; C34, C35 refuted by witness (C35 for surfaces too: `C35_surface_refuted`, C122) (for every positive definite `sqrt`), exact behaviour proved for every input |
| C36,C37 | `NurbsDegreeElevation` (A5.9: insertion, Bezier elevation, removal, knot and point loads), `Curve::ElevateDegree` | existence of the elevated spline by blossoms (`ElevBlossom`, `ElevCurve`); every stage of A5.9 computes values of the two polar forms (`ElevSteps`, `ElevRemove`, `ElevStage`, `ElevMain`). **Partial**: `C36_elevate_partial` (p+times ≤ 29, multiplicity ≤ p, knots ≥ 1e-6 apart, `SteadyMult`, buffer condition), `C36_once_partial` (times = 1, p ≤ 9: only multiplicity and separation), `C36_segment_partial`. **False of the code** in general: `C36_wrong_curve_refuted` (degree 10: `bet` is used where `gam` is needed, the curve changes), `C37_buffer_refuted` (the buffers hold `2(n+times)` points, too few for many segments), `C37_degree_zero_refuted`. The exact condition for an access out of range or an overflow, with nothing assumed about the points, is `C37_exact_partial` (`ElevSafe`: the loop again, lengths and indices only; missing: knots closer than 1e-6); `C37_degree_zero_always_throws` |
| C38 | `ExtractBezier` | blossoms |
| C39,C40 | `GetBoundingBox` (fuelled stack loop) | contraction of de Casteljau halves; C40 refuted for the upper faces (bug of C19) and, for the lower faces, for rational curves (the halves are computed from Cartesian points, so the box is that of the polynomial curve) |
| C41,C42,C51 | searches, with `Evaluate` as the modelled function | invariants over iterations |
| C43,C44,C46,C47 | `Surface::Evaluate`, `InsertKnotU/V` (single, list, times) | tensor segments, lift of the curve results row/column-wise |
| C48,C62,C63 | `Surface::RemoveKnotU/V` with the per-row loop | row loop invariant; curve results per row, rows share the knot vector.  C48 needs one row: shown to fail for the default-constructed surface |
| C45 | `Surface::EvaluateAll`, `EvaluateDerivative` | on a rectangle of spans the homogeneous surface is a bivariate polynomial; Leibniz rule in two variables by double induction; real version with Mathlib's `iteratedDeriv`. **Partial**: orders up to 29 with `C(ou,ou/2)·C(ov,ov/2) < 2³¹`; beyond that `int` overflow, `C45_large_orders_refuted` |
| C50,C64 | `AlignParameterDomain` (corner box, sorted extents, edge vectors, votes, dominant axes, swap, reversals), `acos` and `sqrt` arbitrary functions | a reversed segment is the segment over the reversed knots; the result is the input up to swap/reversals.  **Partial**: at interior knots of multiplicity > degree the right-continuous value becomes the left limit (`C50_jump_refuted`); only the edges at the first corner are inspected, so twisted surfaces are not aligned (`C64_twisted_refuted`) |
| C49 | `ElevateDegreeU/V` | curve result per row/column, common knots by uniqueness of the raised knot vector. **Partial**: `C49_elevateU_partial`, `C49_elevateV_partial` (no interior knots in that direction). **False of the code** otherwise: the grid is enlarged by `times` although every interior knot adds `times` more (`C49_interior_knot_refuted`; for every such surface `C49_interior_knots_always_fail`; `C49_exact_partial`: success if and only if there is no interior knot and the new degree is at most 29) |
| C52,C53 | `GeomSegment`, `GeomRect` with `Make`, `GetCurve`, `GetSurface` | control points are affine in the index, partition of unity; linear precision by blossoms.  C53 **partial**: `RightTopPoint` is never read (`C53_corner_refuted`), it is hit exactly for parallelograms |
| C54–C60, C65–C67 | `SaveToFile`/`LoadFromFile` (stream overloads), `Utils/Serialization.cpp`, text and binary, header, key loop, number printer and parser | codec lemmas; a relation "consumes exactly these bytes, throws on every strict prefix"; for text a relation "runs to"; printing and reading of doubles with exact big-number arithmetic (round half even both ways).  C57/C65 **partial**: 17 decimals lose small numbers (`…_small_number_refuted`; `…_below_refuted`: of any five neighbouring doubles up to 1/16 at least one, because they have at most four different texts, while from 1/16 on all are kept); C58 **partial**: text loads append (`C58_text_appends_refuted`, `C58_surface_text_refuted`, for every byte sequence `C58_text_always_appends`); C66 **partial** (`C66_partial_change_refuted`); C67 **partial** (`C67_curve_refuted`: every curve with a point; `C67_first_line_refuted`: the first line alone is accepted for every curve and surface; proved are the cuts that lose a whole number of the points) |
| C68–C75 | the same definitions, run with numbers that round (`Model/Rounded.lean`) | calculus of relative (`Near`) and absolute (`Close`) errors; loop invariants; for C74 the loop of `InsertKnot` solved for arbitrary operations, errors of the new homogeneous points against the exact insertion, a perturbation bound for rational curves, and induction over the inserted list; for C75 the same per row or column, with a perturbation bound for weighted means over the grid. **Partial / false of the code**: C72 (`C72_reverse_rounding_refuted`: reversing twice changes 0.1, and merges 2⁻⁶⁰ with the end knot), C73 (`C73_endpoints_rounding_refuted`: weight 0.1) |
| C76 | `BoundingBox::Center`, `Length`, `Volume` | direct; the volume is characterised by its unit, additivity, invariance and monotonicity |
| C77 | `BinarySearchParameter`, `BinarySearchParameterOn` (loop, probes, three-way choice) | invariant: the minimum stays in the bracket, whose length halves or drops to 2 epsilon; the hypothesis (one valley) is on the true squared distance of the NURBS point, not on the model |
| C78 | the three descent searches (line search, BFGS update, clamping) | a start without a way down is a fixed point of every iteration.  **Partial**; `C78_curve_refuted`: `current_residual` starts at `DBL_MAX`, so the first line search accepts any step, here from distance 1 to distance 3, where the search gets stuck at the end of the curve |
| C79 | `Curve::SearchParameter`, `Surface::SearchParameterOn` | the residual is an exact parabola: the first update makes `Hk` the inverse second derivative, the second step is exact; the derivative of a NURBS that parametrises a line linearly is shown to be constant (quotient rule on polynomial pieces) |
| C80 | `AlignParameterDomain` (fewer than four long edges: vote) | the top two sorted extents are the two axes; each long edge has its smaller angle to its own axis (the arc cosine only has to decrease on [0,1]).  **Partial**; `C80_collapsed_u_refuted`: with a collapsed u edge the two v edges win the vote for u, so an already aligned patch is swapped out of alignment |
| C81 | `BSplineBasis::EvaluateAll`, `Curve::EvaluateAll`, `Surface::EvaluateAll` with numbers that round | the loops solved for arbitrary operations (`Proof/AnyArith`, `Proof/AnyDeriv`: no law of arithmetic is used), the denominators shown to be non-zero under rounding |
| C82 | the same | signs of the coefficients alternate, so that the coefficients have a small relative error (no cancellation); the terms then add up with an absolute error against the sum of their absolute values (`Spec/RoundedDeriv`: the derivative recursion with plus instead of minus); induction over the quotient rule |
| C83 | the searches of `Model/Search`, `Curve`, `Surface` over `Fl R` | clamping and the guarded divisor need only the order; `rnd(rnd(lo+hi)/rnd 2)` stays in `[0,1]` because rounding is monotone; totality of `Evaluate` and of the first derivatives is C81; the counter, converted to floating point, reaches the limit by monotonicity |
| C84 | `Surface::SearchParameter` with its 2×2 matrix update | along an eigenvector of the second derivatives the first update finds the inverse eigenvalue exactly (`bfgsLoop2_paraboloid`), the second step reaches the foot, where the gradient vanishes and the search stays; the 5000 makes the Armijo test accept full steps (`armijo`) |
| C85 | text files of arbitrary finite doubles | below 1/16 the spacing of doubles is so small that the double read from 17 decimals is printed as the same decimals (`again_small`); so the file of an object is the file of the object that is loaded from it, and that object is read back exactly |
| C86 | `EvaluateAll`/`EvaluateDerivative` of basis, curve and surface as functions of the parameter | the basis polynomials of the two spans that meet at a knot differ by a multiple of `(X - ξ)^(p-s+1)` (`Meet.deriv`, `Agree`), which the quotient rule preserves; glued functions are differentiable as often as their pieces agree (`glue`, `glue_contDiff`); surfaces on the four quadrants around a point (`AgreeM`, `basis_sides`) |
| C87 | `RemoveKnot` with a tolerance > 0 (`CalcTOL`, the sweeps, the test, the write-back and the compaction) | each accepted round is an exact removal after one homogeneous control point has been moved by `c • D`, `abs c ≤ 1`, `D` the vector whose norm is tested (`round_left`, `round_right`; which copy of the middle point survives depends on the parity, `compact_layT`, `compact_layB`); so every linear form of the homogeneous curve moves by at most its bound on the ball of radius `tol` per round (`apx_seg`); Cauchy-Schwarz with the form `d·xyz - (d·C) w` gives the distance. **False for rational curves**: `CalcTOL` divides by `1 + max(w*abs P)` where the estimate needs `1 + max(abs P)`; witness `exSpike`; for surfaces the surface drawn out from it (`C87_surface_rational_refuted`, C122). Surfaces: every row (column) changes a linear form by at most a multiple of its own weight (`row_tol`), and such bounds add up over the other direction (`seg_rel`) |
| C88 | the weights that `RemoveKnot` computes | a property of the weights that every round of the loop keeps is kept by the whole removal (`loop_keeps`, `removeKnot_keeps`); polynomial curves: all weights stay 1; polynomial surfaces row by row (`removeLoopU_total`), the v direction by the exchange C100; multiplicity `p`: nothing is recomputed in the first round. **False for rational curves**: the weight of a recomputed point can be 0 (`exHalf`, half an ellipse) or negative (`exMore`); the same curves drawn out to surfaces show it for both directions (`C88_surface_weights_refuted`) |
| C89 | the control points that `InsertKnot*`, `ExtractBezier`, `ElevateDegree*` compute | every affine function on homogeneous space that is ≥ 0 on the old points is ≥ 0 on the new ones (`InHull`, `InHullS`): one insertion is a convex combination (`inHull_ins`), an elevated point is a mean of control points of knot insertions (`leaveOut_facts`); half-spaces and weight ranges are such functions. Elevation only where it works; the wrong curves of C36 are not covered |
| C90 | `EvaluateDerivative` at 0 and 1 and on the edges; the rows of `BSplineBasis::EvaluateAll` | the derivative of a segment is a segment of one degree less (`segP_derivative`), which at an end knot is its first or last point (`seg_eq_point`); on an edge the two-variable quotient rule and the one-variable one satisfy the same recursion (`mix_edge_u`, `mix_edge_v`); the rows sum to the derivatives of the constant 1 |
| C91 | `Transform` (as a special `Placement`: linear map, translation, weight factor) against `Evaluate`, `EvaluateDerivative`, `InsertKnot…`, `ExtractBezier`, `ElevateDegree…`, `RemoveKnot…` and all searches | a placement is a linear map on homogeneous coordinates (`placeL`); segments, quotient rules and insertion are linear; for elevation and removal every step of the code is shown to commute with linear maps (`Proof/Sim.lean`: `elevation_sim`, `removal_sim`), so these two hold without any hypothesis on the curve; searches see only distances and scalar products. `C91_remove_translation_fails` is the witness that removal is not independent of the origin |
| C92 | `ElevateDegree`, `InsertKnot(list)`, `Evaluate` | on a span the pieces of the basis functions are linearly independent (`segP_zero`), so curves with the same knots and the same homogeneous values are equal (`curve_unique`, `path_unique`, `points_unique`); both ways give curves with the same knots and values. Partial as C36: elevation must be correct on the input |
| C93 | `Evaluate`, `InsertKnot(list)` | one insertion replaces control points by combinations of neighbours with nonnegative factors and positive weights, which adds no sign change of the plane's form (`combo_sign`, `alt_ins`); inserting every parameter of the list to full multiplicity makes the points of the curve control points of a refinement (`evaluate_at_block`), so their alternation pulls back through the insertions (`alt_curve`). `C93_weights_needed`: with a weight −1/2 the curve leaves the side on which all its control points are |
| C94 | `ExtractBezier` over `Fl R` | the extraction loop is solved for any arithmetic (`extractSegments_gen`): the pieces are slices of the control points after insertion of every interior knot up to multiplicity `p`; the insertions are the ones of C74, so their error bounds add up, and the pieces of the inserted curve are the exact ones of C23 |
| C95 | `ElevateDegree`, `ElevateDegreeU/V`, `NurbsDegreeElevation` over `Fl R` | on Bezier knots the whole of `NurbsDegreeElevation` is solved for any arithmetic (`nde_bezier_any`); the rounded coefficients `bezalfs` are within `(1-u)^±(p+…)` of the exact ones, which are nonnegative and sum to 1 (Vandermonde), so weights and points are; comparison with the exact elevation (C36, C49). Curves with interior knots are not treated with rounding (knot removal inside the elevation divides by differences of computed values) |
| C96 | `Reverse`, `Evaluate`, `EvaluateDerivative`, `InsertKnot`, `ExtractBezier`, `ElevateDegree` | `Spec/Reverse.lean`: `backwards` (`KnotVector::Reverse` and reversed control points); segments of the reversed knots are the mirrored segments, and a curve is determined by its homogeneous values between the knots, so both orders of the operations give the same object. **False** of elevation: at degree 10 a triple knot after a single one is elevated wrongly, a single one after a triple one correctly (`C96_elevate_refuted`). Surfaces (`Spec/ReverseSurface.lean`: `backwardsU`, `backwardsV`): segments are mirrored row by row; derivatives by the algebra map `X 0 ↦ 1 - X 0`, which anticommutes with `∂/∂u`; insertion row by row from the curve; `v` by exchanging the directions |
| C97 | `Evaluate`, `EvaluateAll`, `InsertKnot`, `InsertKnotU/V` over `Fl R` | `Spec/Local.lean`: `SameSpan`, `SamePatch` (the knots around the span and its control points agree). The results in any arithmetic (`Proof/AnyArith`, `Proof/AnyDeriv`) are shown to read nothing else, index by index; insertion moves knots and points without touching them. `C97_any_curve`, `C97_any_surface` (Props/LocalAny) assume nothing about the operations and the objects (comparisons are a linear order): the loops are compared step by step. Examples show that inside the range named the bits do change |
| C98 | `BSplineBasis::Evaluate`, `Curve::Evaluate`, `Surface::Evaluate` | `Spec/Precision.lean`: `greville`. A function of `p` arguments that is symmetric and affine in each is reproduced by the basis from its values at consecutive knots (`seg_eq_of_dual`); applied to the product of `y - t_j`, to the mean of the arguments and to the polar form of a polynomial; on surfaces in one direction after the other |
| C99 | `EvaluateDerivative`, `EvaluateAll`, `Evaluate` | `Spec/Hodograph.lean`: `hodograph`. Equal weights turn the quotient rule into plain derivatives; the derivative of a segment is a segment of degree `p-1` (`segP_derivative`) on the shortened knots. Chords: inside a span by exchanging the arguments of the blossom one by one, across knots by continuity. Examples: unequal weights, and a knot repeated `p+1` times |
| C100 | all of `Surface` but loading and saving | `Spec/Transposed.lean`: `transposed`, `Sized`. Points and derivatives from C43/C44 with the sums exchanged (`ratD2_rec` by induction on the total order). Insertion from the closed forms of both directions. Removal and elevation by a simulation of the loops (`forUp_simI`), for any arithmetic and with all outcomes. Searches by a simulation in which the 2x2 matrix and the gradient have their entries exchanged. |
| C101 | `Curve` and `Surface` evaluation, derivatives, insertion | `Spec/Iso.lean`: `isoCurve`. In homogeneous coordinates its control points are the segments in `v` of the columns (`hpts_iso`); points and derivatives by exchanging the sums, insertion because one step of it is linear, the chord bound by C99 and convexity. The direction `v` by C100. |
| C102 | `Curve` and `Surface` evaluation and first derivatives (exact) | Proof/Circle, Props/Circle: a segment of degree two between double knots is a Bezier segment, so the equation of the sphere is an identity of polynomials; the parameter of a given point is found from its barycentric coordinates. Revolution: the double sum factors. Instances: a rational arc, `circle9` over every ordered field with a root of 1/2, a cone. |
| C103 | `Curve::Evaluate`, `Surface::Evaluate`, `BSplineBasis::Evaluate` at `Double` (Model/Double: round to nearest even, gradual underflow, overflow to a value `⊥` for infinity and NaN) | Proof/Double, DoubleBasis, DoubleCurve, Props/Double: sums and differences never underflow inexactly (all numbers are multiples of 2^-1074), so knot differences have a relative error; every other intermediate result has a relative and an absolute error, and the absolute errors are followed through the triangle, the sum and the quotient. Not proved: shorter intervals and larger data than stated; **false without such limits** (`C103_refuted`, `C103_overflow`). In the witness the code computes 1/2^-1074 = ∞, then 0·∞ = NaN, so `⊥` is what IEEE gives there too. |
| C104 | `Curve::InsertKnot(vector)`, `Curve::Evaluate`, `Surface::InsertKnotU/V(vector)`, `Surface::Evaluate` | Proof/Refine, Props/Refine: Boehm's formula keeps `p (g_i - g_(i-1)) <= b (U[i+p] - U[i])` for every linear function of the homogeneous control points (`diff_insP`), wherever the knots differ; the differences within one span add up to `b` times the distance of the knots `p` before and after it; uniform knots `j/N` make all gaps small. Spec: `hodograph` (C99), `form`. Equal weights only; no condition on multiplicities. Surfaces (Props/RefineSurface, Spec/NetSpeed): the rows are refined as curves, insertion across takes convex combinations of rows; the other direction by exchanging the directions (C100) and the order of insertion (C47) |
| C105 | `Curve::Evaluate`, `Surface::Evaluate`, text files | Props/Stability: with `t` the coordinate of the old point, each new term `w'(g' - t - r)` is at most the old `w (g - t)` (`perturb_term`), and the old ones sum to 0 (`seg_le`, `perturb_point`); text files: the same with the bit-exact `SameTo17` of C85. Spec/Values: the numbers that stored doubles stand for. Knots that do not survive are not covered, evaluation is exact |
| C106 | `KnotVector::IsUniform` | Props/Uniform: induction over the list, once with the remembered interval 0 and once with it fixed. Stated with the knots `kn` only. Added because a mutant that answered true for unequal intervals had survived |
| C107 | the text loop of `LoadFromFile` (Curve.cpp, Surface.cpp), `TrimString`, `processKey` | Spec/TextLayout describes layouts (`SameLines`, `Blank`, `KeyLine`, `NoKey`, `contentLines`) by concatenation of bytes; Proof/TextLayout: one step of the loop depends on the trimmed line only; a step invariant for the collected lines. False of keys without a name: the lines collected so far are cleared only if the current key is not empty (`C107_nameless_refuted`). Trailing characters of a number are ignored (`C107_garbage_accepted`). Added because a mutant that took the first of several degree lines had survived |
| C108 | the whole of both `LoadFromFile` | Proof/TextLayout: `OnlyThrows`, closed under sequence, branches and loops, for every function of the loader; for surfaces the only other outcome is the overflow of `ucount * vcount`. False for surfaces (`C108_surface_refuted`, text and binary). Failure to allocate memory is an exception in C++ and is not modelled separately |
| C109 | `Curve::InsertKnot`, `Surface::InsertKnotU/V` (all three forms each) at `Double` | Proof/DoubleInsert, Proof/DoubleSurfaceInsert, Props/DoubleInsert, Props/DoubleSurfaceInsert: the loop is followed for any arithmetic (Proof/RoundedInsert, `insertKnot_gen`); numerator and denominator of the fraction are differences of multiples of 2^-1074, so they have a relative error only and the fraction stays in [0,1] however close the knots are; relative and absolute errors of the new homogeneous point are compared with the exact one, and a curve with control points nearby is nearby (`wsum_perturb`); a surface is treated row by row, column by column. Not proved: larger ranges of the data; **false without limits** (`C109_underflow_refuted`: weights 2^-1074, the new weight rounds to 0; `C109_overflow_refuted`). |
| C110 | assertions at the entry of every function; `Curve::InsertKnot(span)`, `Surface::RemoveKnotU/V`, `KnotRemoval` at 0 and 1 | Props/Arguments, Proof/EndKnots: the assertions are shown for any arithmetic and any object.  False for the list form of `Curve::InsertKnot` (Curve.cpp:494-517 asks only `FindSpanIndex`, which takes 0 and 1): `C110_one_refuted`, `C110_zero_refuted` follow the loop on every well-formed curve (all alphas are 1 or 0), then the first step of the basis recurrence in the empty end span (0/0).  False for `Surface::RemoveKnotU/V` (Surface.cpp:764-800, no assertion): `C110_remove_zero_refuted` (`points[first - 1]` with `first = 0`, every surface), `C110_remove_one_refuted` (witness with tolerance 0).  Assertions count as an outcome; with `NDEBUG` the same calls go on with undefined results, which is not modelled |
| C111 | all editing functions of curves and surfaces | Props/Edits: histories of calls are an inductive predicate (`Edits`, `EditsS`) whose steps are calls that returned normally; by induction with C27, C30, C31, C36, C46, C49, C87, C88, C89 and the triangle inequality without square roots.  `C111_tolerance_partial` and `C111_total_partial` (and their `_surface` versions) need weights 1 because of `C87_rational_refuted` and `C88_weights_refuted` |
| C112 | the text loop and `process_key` of `LoadFromFile` (Curve.cpp, Surface.cpp) | Spec/Sections (`IsSection`, `Rearranged`: for every name the sections of that name are the same in the same order); Proof/Sections: the loop over lines is a loop over sections (`sections_run`), each section is a statement about one member, two statements about different members may be exchanged (`zoom_comm`), and induction over the sections moves each to its place. If loading fails, what is left in the object may depend on the order (shown by an example), so the statement is about accepted files |
| C113 | binary part of `LoadFromFile`, `SaveToFile` | `Proof/SerialInv.lean`: every successful read determines the bytes it consumed (the byte representations of `int`, `double`, `Vec4`, knots are one to one), so the whole body is `SaveToFile`'s; the other direction is C54/C56 |
| C114 | evaluation, derivatives, searches, insertion, extraction, elevation, bounding box, `KnotRemoval` with `CalcTOL` | Spec/Reweigh (`reweigh`, `reweighS`, `rescale`, `LargestReach`); the factor is a placement (C91) with identity matrix; the box loop sees only positions (Proof/Reweigh `boxLoop_sim`); elevation by simulation along the diagonal map, for every input. **Partial**: removal depends on the factor and on the unit of length (`C114_remove_refuted`, `C114_units_refuted`: `CalcTOL` divides by `1 + max` of homogeneous distances, in which a length is added to a number without unit); `C114_remove_partial` gives the tolerance that makes up for the factor. With tolerance 0 the factor makes no difference, for curves and surfaces, failures included (Props/ReweighRemove, by simulation); with a positive one it does for surfaces too (`C114_remove_surface_refuted`). No law of the tolerance for surfaces: each row has its own `CalcTOL` |
| C115 | `Curve::Evaluate`, `Surface::Evaluate` (exact) | Spec/Samples (`SampledOn`, `SampledOnGrid`); Props/Samples: in an interval of the joint knots both curves are quotients of polynomials, the difference of the points is a polynomial of degree at most p + p' over a product of weights, and it has too many zeros; surfaces in one variable after the other. With equal weights the difference is itself a spline and uniqueness of control points (C92) gives equality, for surfaces in both directions (`C115_same_weights_surface`). `C115_sharp`: two curves of degree 1 that agree at two parameters but not at a third |
| C116 | `Curve::GetBoundingBox` with `ExtractBezier`, de Casteljau halves, `ExpandToIncludeBox` | Proof/BBoxTouch: loop invariant "every coordinate of the box is a coordinate of a point of the curve, every piece on the stack is a part of the curve" (`boxLoop_faces`); the box only ever takes end points of pieces. **Partial**: equal weights. **False** of rational curves (`C116_rational_refuted`: the halves are computed from Cartesian points, so their end points are not on the curve) |
| C117 | `ExtractBezier`, `GetBoundingBox`, `InsertKnot` | Props/BezierPieces: the points of the pieces are blossom values at the distinct knots (`extractBezier_spec`), which insertion keeps (`SamePolar`); for `C117_path` polynomials equal on an interval are equal |
| C118 | `ExtractBezier` at `Double` | Proof/DoubleBezier, Props/DoubleBezier: the list of knots to insert is that of the exact curve, then C109 for the whole list; the pieces of the rounded curve are cut out without arithmetic. **Partial**: limits of the data as in C109. **False without limits** (`C118_underflow_refuted`) |
| C119 | `GetBoundingBox` | Proof/BBoxMono: the returned box is the least box around the ends of the pieces that are not halved any more (`boxLoop_least`, an equivalence); these pieces for the larger tolerance are unions of those for the smaller one, and halving keeps the ends (`leaf_mono`) |
| C120 | `GetBoundingBox` | Proof/BBoxMove: a motion of the points under which `controlBox`, `endBox`, `boxDone` and the halving go along (`BoxMotion`) carries the whole loop along (`boxLoop_move`, `boxFold_move`); placements that permute the axes are such motions (`boxMotion_place`). **Refuted** for the direction of the curve (`C120_direction_refuted`: with tolerance 3 the box of a curve along the y axis is [-1/2, 2] one way and [0, 2] the other way) and for mirror images (`C120_mirror_refuted`: [0, 0] and, mirrored, [-5/2, 0]) – the defect of C40 seen from outside |
| C121 | `GetBoundingBox` at `Fl R` and at `Double` | Proof/RoundedBBox: for any arithmetic the halves are read off the triangle `triG`; a rounded mean lies between its arguments and is off by at most `uB`, so the largest step `d` between neighbouring control points becomes at most `d/2 + p u B` in each half (`triR_left`, `triR_right`), and pieces with `p d (1+u)` below the rounded 1e-6 are accepted (`boxDone_small_fl`). Each inserted knot enlarges coordinates by a factor of at most `(1-u)^-8` (`insC_range`, `extractBezier_range`), so the limit can be put on the control points of the curve. `Binary` (2 and halves are exact) is proved of `binary53`. **Refuted** for large coordinates (`C121_endless_refuted`, `Double`): control points (a,a'), (b,b'), (b,b') with `b` next below `a`, `b'` next above `a'`, both with even last bit: the means round to (b,b'), so the left half is the piece itself, and it is neither small (its size along y is one unit in the last place) nor flat (`Max` is that of the last point, C19) |
| C122 | `Surface::Evaluate`, `EvaluateDerivative`, `RemoveKnotU`, `RemoveKnotV`, `InsertKnotU`, `InsertKnotV`, `ElevateDegreeU`, `ElevateDegreeV` on surfaces all of whose rows are the control points of one curve (`drawn`, Spec/Drawn) | the isoparametric curves (C101) of such a surface are the curve: partition of unity (`seg_const`); every pass of the loop over the rows calls `KnotRemoval` with the same arguments, and its counts (`knotRemoval_counts`) give the size of the new grid. Insertion across the curve averages equal points with weights that add up to 1; elevation runs on every row alike and fails in `SetV` (`SetU`) if the number of points is wrong. Carries refutations over to surfaces (C35, C87) |
| C123 | `Surface::Evaluate` on surfaces with `DegreeV` = 1 and two rows of control points, `Curve::Evaluate` on the curves of the rows | the knots in `v` can only be 0, 0, 1, 1 (`clamped_two`); the isoparametric curve at `u` (C101) is a segment whose end points carry the denominators of the two curves as weights |

### Rounding

Almost all of the model (all but `GetBoundingBox` and `AlignParameterDomain`) is stated over bare operations
`0 1 + - * / ≤`, not over a field.  `Fl R` is the type of numbers representable under a rounding function `R`; each of its operations
is the exact operation followed by `R`.  A `Rounding` is monotone, odd, idempotent, keeps 1 and has relative error at most `u < 1`:
this is IEEE 754 arithmetic as long as no result overflows or falls into the subnormal range.  `binary53` is the instance for `double` with
round-half-even; that it satisfies the axioms is proved.  Assumed, not modelled: no overflow, no underflow, no `-0`, no contraction of
`a*b+c` to a fused operation, no excess precision.  The error bounds compare with `exactCurve c` etc., the object with the same numbers read as exact.
The theorems C01, C03 – C08, C10 ask only for a linear order and hold for `Fl R` as stated.

### Files

A stream is the list of bytes still to be read plus the end-of-file flag; a load is a function from object and stream to
outcome, object and stream, so that what an exception leaves behind is visible.  `int` is 32 bits, two's complement, little endian;
`double` is IEEE 754 binary64, little endian; its text form is that of `std::fixed << std::setprecision(17)` and of `operator>>` in
the "C" locale with libstdc++'s behaviour (round to nearest even, value stored and `failbit` set on `int` overflow).  Points
created by `resize` are uninitialised in Eigen: the parameter `junk` stands for their content; the positive theorems hold for all values of it, refutation witnesses may fix one.
Not modelled: the overloads taking a file name, write errors, the stream position after an exception in text mode.  `inf`/`nan` input
fails to parse and of `0x…` only the `0` is consumed, which is how libstdc++'s `num_get` accumulates characters (other standard libraries differ).

## Trusted base

* Lean 4.33.0's kernel; Mathlib's definitions used in statements (`Nat.choose`, `List`, `Finset.sum`, `iteratedDeriv`, ordered fields).
* Axioms: every theorem depends only on `propext`, `Classical.choice`, `Quot.sound` (some on fewer).  No `sorry`, no `native_decide`,
  no own axioms.
* That the model says what the C++ says.  It was written by reading; nothing was compiled.  Every definition in `Verif/Model` cites
  the file and lines it stands for.  As a check on the reading, the model is run at build time on the inputs of all of `/repo/UnitTest`
  (`Verif/Tests/Conformance.lean`; a few loops with fewer samples; messages of exceptions are not compared): it gives what those tests
  expect, with `double` rounding, including the results of the parameter searches.

Modelled: `Core/KnotVector`, `Core/Grid`, `Core/BoundingBox`, `Core/Vec`-level arithmetic, `Basis/BSplineBasis`, `Algorithm/MathUtils` (`Binomial`, `Factorial`),
`Algorithm/DegreeAlgo`, `Algorithm/KnotRemoval`, `Curve` (all member functions), `Surface` (all member functions),
`Geometry/GeomSegment`, `Geometry/GeomRect`, `Utils/Serialization`.

Not modelled: rounding outside C68 – C75, C81 – C83, C94, C95, C97, C103, C109, C118 and C121, overflow and underflow of `double` outside C103, C109, C118 and C121, the difference between infinity and NaN and between the two zeros, overflow of `int` counters other than in `Binomial`, the binomial products and the file code, allocation failure,
Eigen internals, file-system behaviour, performance, locale, threads.

## Wrong programs

`seeded/LOG.jsonl` records edits of the model made in a scratch copy, by hand or by a script that swaps operators, constants and indices.
How to read it:

* `first_failures` are the declarations at which the build stopped.  `theorems_failed` adds all property theorems that use one of them;
  these were found from the dependencies, not rebuilt one by one.
* An entry whose `edit` begins with `line N:` comes from the script.  Its `claim` is the list of properties whose theorems failed, not a
  judgement made beforehand.
* Edits that did not compile are left out.  An edit by hand that survived and led to a stronger theorem was, until late in the work, recorded
  only once it was caught (`theorems_tightened` names the theorem); since then survivors have their own line.
* A proof also breaks when an edit changes the shape of a definition but not its meaning.  A failed theorem is therefore evidence that the
  theorem speaks about the definition, and no proof that the claim became false.
