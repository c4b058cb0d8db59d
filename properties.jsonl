{"id": "C01", "title": "KnotVector constructor accepts exactly the well-formed vectors", "statement": "KnotVector(values) succeeds if and only if values is non-empty, non-decreasing, has no entry below 0 and ends in exactly 1; on success Values() is the argument unchanged, otherwise std::invalid_argument is thrown.", "quantifier": "every finite list of (non-NaN) numbers", "why_tests_cant": "the input space of vectors is infinite; tests sample a handful", "anchors": ["src/Core/KnotVector.cpp", "include/libnurbs/Core/KnotVector.hpp", "ValidateKnots", "KnotVector::KnotVector(const vector<Numeric>&)"]}
{"id": "C02", "title": "A constructed KnotVector never contains NaN", "statement": "No KnotVector built by the public constructor holds a NaN entry.", "quantifier": "every list of IEEE values including NaN", "why_tests_cant": "NaN comparisons follow their own rules in any position of a vector of any length", "anchors": ["src/Core/KnotVector.cpp", "include/libnurbs/Core/KnotVector.hpp", "ValidateKnots"]}
{"id": "C03", "title": "Knot pairs round-trip", "statement": "GetKnotPairs of a knot vector lists each distinct value once with its multiplicity, in strictly increasing order for a sorted vector, and KnotVector(GetKnotPairs()) rebuilds exactly the same vector.", "quantifier": "every knot vector", "why_tests_cant": "run-length structure of arbitrary-length vectors", "anchors": ["src/Core/KnotVector.cpp", "include/libnurbs/Core/KnotVector.hpp", "GetKnotPairs", "KnotVector::KnotVector(const vector<KnotPair>&)"]}
{"id": "C04", "title": "KnotPair.Index is the position of the first occurrence", "statement": "For every pair returned by GetKnotPairs, Index is the index in Values() of the first knot equal to Value.", "quantifier": "every sorted knot vector and every pair of it", "why_tests_cant": "must hold for every pair of every vector", "anchors": ["src/Core/KnotVector.cpp", "include/libnurbs/Core/KnotVector.hpp", "GetKnotPairs"]}
{"id": "C05", "title": "IsValid decides well-formedness", "statement": "IsValid() returns true exactly when the vector has at least four knots, starts at 0, ends at 1 and is non-decreasing.", "quantifier": "every knot vector", "why_tests_cant": "all adjacent pairs of every vector of every length", "anchors": ["src/Core/KnotVector.cpp", "include/libnurbs/Core/KnotVector.hpp", "IsValid"]}
{"id": "C06", "title": "FindSpanIndex returns the span that contains the parameter", "statement": "For a clamped knot vector of degree p (end multiplicity exactly p+1) and every u in [0,1], FindSpanIndex(p,u) returns the unique k in [p, count-p-2] with knot[k] <= u < knot[k+1], or the last non-empty span when u = 1; it never reads out of bounds.", "quantifier": "every clamped knot vector, every degree, every u in [0,1]", "why_tests_cant": "u ranges over a continuum and includes every knot, repeated or not", "anchors": ["src/Core/KnotVector.cpp", "include/libnurbs/Core/KnotVector.hpp", "FindSpanIndex"]}
{"id": "C07", "title": "FindSpan returns the distinct-knot interval containing the parameter", "statement": "For a sorted knot vector with at least two distinct values starting at 0 and ending at 1 and u in [0,1], FindSpan(u) returns consecutive distinct knots Left, Right with Left.Value <= u and (u < Right.Value, or Right is the last distinct knot), and Index is the ordinal of Left among the distinct knots.", "quantifier": "every such knot vector, every u in [0,1]", "why_tests_cant": "all intervals of all vectors", "anchors": ["src/Core/KnotVector.cpp", "include/libnurbs/Core/KnotVector.hpp", "FindSpan"]}
{"id": "C08", "title": "InsertKnot keeps a knot vector sorted and only adds the requested copies", "statement": "For a non-decreasing vector and 0<value<1, InsertKnot(value,times) yields a non-decreasing vector whose entries are the old ones plus exactly `times` copies of value, IsValid is preserved, and the returned index is the index of the last old knot <= value.", "quantifier": "every sorted vector, every value in (0,1), every times >= 0", "why_tests_cant": "every position including repeated knots", "anchors": ["src/Core/KnotVector.cpp", "include/libnurbs/Core/KnotVector.hpp", "InsertKnot"]}
{"id": "C09", "title": "KnotVector::Uniform builds a clamped, equally spaced vector", "statement": "For degree>=0 and count>=2(degree+1), Uniform(degree,count) never throws, has exactly count knots, starts with degree+1 zeros, ends with degree+1 ones, interior knots are equally spaced, and IsUniform() is true and DetectDegree() is degree.", "quantifier": "every degree and knot count", "why_tests_cant": "two unbounded integer parameters", "anchors": ["src/Core/KnotVector.cpp", "include/libnurbs/Core/KnotVector.hpp", "Uniform", "IsUniform", "DetectDegree"]}
{"id": "C10", "title": "IsClamped recognises clamped knot vectors", "statement": "IsClamped() returns true exactly when the multiplicity of 0 at the start equals the multiplicity of 1 at the end.", "quantifier": "every valid knot vector", "why_tests_cant": "vectors of every length", "anchors": ["src/Core/KnotVector.cpp", "include/libnurbs/Core/KnotVector.hpp", "IsClamped"]}
{"id": "C11", "title": "Reverse mirrors the knot vector and is its own inverse", "statement": "Reverse() replaces knots u_i by 1-u_{m-i}; applying it twice restores the vector, and it preserves IsValid, Count and clamping multiplicities.", "quantifier": "every knot vector", "why_tests_cant": "every length and content", "anchors": ["src/Core/KnotVector.cpp", "include/libnurbs/Core/KnotVector.hpp", "Reverse"]}
{"id": "C12", "title": "GetMultiplicity counts knots within 1e-6", "statement": "GetMultiplicity(u) is the number of knots v with |v-u| < 1e-6; when every knot different from u is at least 1e-6 away it is the exact number of occurrences of u.", "quantifier": "every knot vector and every u", "why_tests_cant": "all vectors, all u", "anchors": ["src/Core/KnotVector.cpp", "include/libnurbs/Core/KnotVector.hpp", "GetMultiplicity", "include/libnurbs/Algorithm/MathUtils.hpp Approx"]}
{"id": "C13", "title": "Binomial computes binomial coefficients without overflow for n <= 29", "statement": "For 0<=n<=29 and every k>=0, Binomial(n,k) equals n choose k with no 32-bit signed overflow and every intermediate division exact; outside that range overflow (undefined behaviour) can occur, e.g. Binomial(30,15).", "quantifier": "every n,k; exact equality without overflow bound for every n,k in unbounded integers", "why_tests_cant": "exactness of the division at each step needs an argument for every i", "anchors": ["include/libnurbs/Algorithm/MathUtils.hpp", "Binomial"]}
{"id": "C14", "title": "Factorial is n! on its whole domain", "statement": "Factorial(n) = n! for 0<=n<=9 and the assertion fires for every other n.", "quantifier": "every int n", "why_tests_cant": "domain is all ints, only ten succeed", "anchors": ["include/libnurbs/Algorithm/MathUtils.hpp", "Factorial"]}
{"id": "C15", "title": "Grid rows, columns and cells agree", "statement": "On a grid whose storage matches its dimensions, GetU(u)[v] = GetV(v)[u] = Get(u,v); after SetU/SetV the written row/column reads back and every other cell is unchanged; no access is out of bounds. Count is the number of stored cells. Indices that are too large, and rows or columns of the wrong length, are refused by the assertions; negative indices are not (they reach a cell of another row, or nothing: undefined behaviour).", "quantifier": "every grid size, every in-range index, every content", "why_tests_cant": "index arithmetic for all sizes", "anchors": ["include/libnurbs/Core/Grid.hpp", "Get", "GetU", "GetV", "SetU", "SetV"]}
{"id": "C16", "title": "Grid::InsertV inserts one row and moves nothing else", "statement": "InsertV(v,d) gives a grid with VCount+1 where cells with index<v are unchanged, row v is d and old rows >=v are shifted by one.", "quantifier": "every grid size, every in-range v", "why_tests_cant": "all sizes", "anchors": ["include/libnurbs/Core/Grid.hpp", "InsertV"]}
{"id": "C17", "title": "Grid::InsertU inserts one column and moves nothing else", "statement": "InsertU(u,d) (an in-place backwards move) gives a grid with UCount+1 where columns <u are unchanged, column u is d and old columns >=u are shifted by one, with every access in bounds.", "quantifier": "every grid size, every in-range u", "why_tests_cant": "in-place overlap correctness for every size", "anchors": ["include/libnurbs/Core/Grid.hpp", "InsertU"]}
{"id": "C18", "title": "BoundingBox construction and box union are tight", "statement": "BoundingBox(a,b) is the smallest box containing a and b; ExpandToInclude(box) yields the smallest box containing both boxes; Contains(box) for an ordered box holds exactly when every point of it is contained.", "quantifier": "every pair of points/boxes", "why_tests_cant": "continuum of inputs", "anchors": ["include/libnurbs/Core/BoundingBox.hpp", "BoundingBox(const Vec3&,const Vec3&)", "ExpandToInclude(const BoundingBox&)", "Contains"]}
{"id": "C19", "title": "ExpandToInclude(point) grows the box", "statement": "After ExpandToInclude(p) the box contains p and every point it contained before.", "quantifier": "every box and point", "why_tests_cant": "continuum of inputs, any sequence of calls", "anchors": ["include/libnurbs/Core/BoundingBox.hpp", "ExpandToInclude(const Vec3&)"]}
{"id": "C20", "title": "Basis evaluation equals the Cox-de Boor recursion", "statement": "For a clamped knot vector and x in [0,1], BSplineBasis::Evaluate(degree,knots,x) returns the degree+1 values of the textbook Cox-de Boor functions N_{k-p..k,p}(x), every other N_{i,p}(x) is zero, and no division by zero or out-of-bounds access occurs.", "quantifier": "every degree, every clamped knot vector, every x", "why_tests_cant": "unbounded degree and continuum of x", "anchors": ["src/Basis/BSplineBasis.cpp", "BSplineBasis::Evaluate"]}
{"id": "C21", "title": "Basis functions are non-negative and sum to one", "statement": "The values returned by BSplineBasis::Evaluate are each >= 0 and sum to exactly 1.", "quantifier": "every degree, every clamped knot vector, every x in [0,1]", "why_tests_cant": "must hold on a continuum", "anchors": ["src/Basis/BSplineBasis.cpp", "BSplineBasis::Evaluate"]}
{"id": "C22", "title": "EvaluateAll returns the true derivatives of the basis functions", "statement": "Row k of EvaluateAll(degree,knots,x,order) is the k-th derivative of the degree+1 non-zero basis functions on the span of x, for every k<=order including k>degree (zero rows); row 0 equals Evaluate; EvaluateDerivative is row `order`.", "quantifier": "every degree, knot vector, x and order", "why_tests_cant": "unbounded degree and order, alternating scratch rows with stale entries", "anchors": ["src/Basis/BSplineBasis.cpp", "BSplineBasis::EvaluateAll", "BSplineBasis::EvaluateDerivative"]}
{"id": "C23", "title": "Curve::Evaluate is the NURBS curve point", "statement": "For a well-formed curve (clamped knots, positive weights, count = degree+1 fewer control points) and x in [0,1], Evaluate(x) succeeds and equals sum N_{i,p}(x) w_i P_i / sum N_{i,p}(x) w_i over all control points.", "quantifier": "every well-formed curve and x", "why_tests_cant": "continuum of parameters and curves", "anchors": ["src/Curve/Curve.cpp", "Curve::Evaluate"]}
{"id": "C24", "title": "Curves interpolate their end control points", "statement": "Evaluate(0) is the first control point and Evaluate(1) the last.", "quantifier": "every well-formed curve", "why_tests_cant": "all degrees/weights", "anchors": ["src/Curve/Curve.cpp", "Curve::Evaluate"]}
{"id": "C25", "title": "Convex hull property", "statement": "Every half-space that contains all control points contains Evaluate(x); moreover only the degree+1 control points of the active span matter.", "quantifier": "every well-formed curve, every x, every half-space", "why_tests_cant": "continuum", "anchors": ["src/Curve/Curve.cpp", "Curve::Evaluate"]}
{"id": "C26", "title": "Local control", "statement": "Replacing control point i (keeping a positive weight) does not change Evaluate(x) for any x outside [knot[i], knot[i+p+1]].", "quantifier": "every well-formed curve, index, replacement and x", "why_tests_cant": "continuum", "anchors": ["src/Curve/Curve.cpp", "Curve::Evaluate"]}
{"id": "C27", "title": "Transform commutes with evaluation", "statement": "Transform(R).Evaluate(x) = R * Evaluate(x), and Transform leaves degree, knots, weights unchanged; Transform(S) after Transform(R) equals Transform(S*R).", "quantifier": "every well-formed curve, every 3x3 matrix, every x (also for surfaces)", "why_tests_cant": "continuum of matrices", "anchors": ["src/Curve/Curve.cpp", "Curve::Transform", "src/Surface/Surface.cpp Surface::Transform"]}
{"id": "C28", "title": "Weights are projective", "statement": "Multiplying every weight by the same positive constant changes no value of Evaluate; a curve for which IsRational() is false evaluates to the plain B-spline sum N_{i,p}(x) P_i; IsRational() is true exactly when two weights differ.", "quantifier": "every well-formed curve and constant", "why_tests_cant": "continuum", "anchors": ["src/Curve/Curve.cpp", "Curve::IsRational", "Curve::Evaluate"]}
{"id": "C29", "title": "Curve::EvaluateAll returns the true derivatives of the curve", "statement": "For x in [0,1] and every order, EvaluateAll(x,order)[k] is the k-th derivative (one-sided at knots) of t -> Evaluate(t) at x for all k<=order, and EvaluateDerivative(x,order) is the last entry.", "quantifier": "every well-formed curve, x, order", "why_tests_cant": "derivatives are limits; unbounded order", "anchors": ["src/Curve/Curve.cpp", "Curve::EvaluateAll", "Curve::EvaluateDerivative", "Curve::HomogeneousDerivative"]}
{"id": "C30", "title": "Curve::InsertKnot(value) preserves the curve", "statement": "For degree>=1 and 0<value<1, InsertKnot(value) adds one knot and one control point, yields a well-formed curve again, and Evaluate is unchanged at every x in [0,1].", "quantifier": "every well-formed curve of degree >=1, value, x", "why_tests_cant": "continuum; value may coincide with a knot of any multiplicity", "anchors": ["src/Curve/Curve.cpp", "Curve::InsertKnot(Numeric)"]}
{"id": "C31", "title": "InsertKnot of a list or with times preserves the curve", "statement": "InsertKnot(list) and InsertKnot(value,times) preserve Evaluate everywhere, add exactly the listed knots, agree with repeated single insertion for degree >= 1, and do not depend on the order of the list.", "quantifier": "every well-formed curve, every list of values in (0,1)", "why_tests_cant": "arbitrary sequences of insertions", "anchors": ["src/Curve/Curve.cpp", "Curve::InsertKnot(std::span<Numeric>)", "Curve::InsertKnot(Numeric,int)"]}
{"id": "C32", "title": "RemoveKnot undoes InsertKnot", "statement": "Removing (times=1) a knot that was just inserted succeeds (returns 1) for every non-negative tolerance and gives back the original knots and control points.", "quantifier": "every well-formed curve of degree >= 1, every value in (0,1) of multiplicity at most degree+1 whose other knots are at least 1e-6 away", "why_tests_cant": "continuum", "anchors": ["src/Curve/Curve.cpp", "src/Algorithm/KnotRemoval.cpp", "Curve::RemoveKnot", "KnotRemoval"]}
{"id": "C33", "title": "Exact successful knot removal preserves the curve", "statement": "If RemoveKnot(u,times,0) returns times, with times <= multiplicity of u, the result has `times` fewer knots and control points and Evaluate is unchanged everywhere.", "quantifier": "every well-formed curve, every u in (0,1) of multiplicity at most degree+1 whose other knots are at least 1e-6 away, every such times", "why_tests_cant": "continuum", "anchors": ["src/Curve/Curve.cpp", "src/Algorithm/KnotRemoval.cpp", "Curve::RemoveKnot", "KnotRemoval"]}
{"id": "C34", "title": "Failed knot removal leaves the curve unchanged", "statement": "If RemoveKnot returns count 0 the returned curve equals the input curve.", "quantifier": "every well-formed curve, u, times, tolerance", "why_tests_cant": "any rational weights", "anchors": ["src/Curve/Curve.cpp", "src/Algorithm/KnotRemoval.cpp", "Curve::RemoveKnot", "KnotRemoval"]}
{"id": "C35", "title": "Partially successful knot removal stays consistent", "statement": "If RemoveKnot(u,times) returns t < times, the returned curve has exactly t fewer knots and t fewer control points.", "quantifier": "every well-formed curve, u, times, tolerance", "why_tests_cant": "depends on which removal step fails", "anchors": ["src/Algorithm/KnotRemoval.cpp", "KnotRemoval"]}
{"id": "C36", "title": "ElevateDegree preserves the curve", "statement": "ElevateDegree(times) raises the degree by times, raises every distinct knot's multiplicity by times and leaves Evaluate unchanged at every x.", "quantifier": "every well-formed curve, every times >= 1", "why_tests_cant": "continuum; unbounded degree and times", "anchors": ["src/Algorithm/DegreeAlgo.cpp", "src/Curve/Curve.cpp", "NurbsDegreeElevation", "Curve::ElevateDegree"]}
{"id": "C37", "title": "ElevateDegree stays inside its buffers", "statement": "NurbsDegreeElevation never reads or writes outside its vectors.", "quantifier": "every well-formed curve, every times >= 1", "why_tests_cant": "sizes depend on three unbounded parameters", "anchors": ["src/Algorithm/DegreeAlgo.cpp", "NurbsDegreeElevation"]}
{"id": "C38", "title": "ExtractBezier splits the curve into its Bezier pieces", "statement": "For degree>=1 and interior multiplicities <= degree, ExtractBezier() returns one degree-p Bezier curve per non-empty knot span, in order, and the j-th piece evaluated at t equals the curve at a+t(b-a), where [a,b] is the j-th distinct knot interval.", "quantifier": "every such curve, every span, every t in [0,1]", "why_tests_cant": "continuum", "anchors": ["src/Curve/Curve.cpp", "Curve::ExtractBezier"]}
{"id": "C39", "title": "GetBoundingBox terminates and lies inside the control polygon's box", "statement": "GetBoundingBox(eps) terminates for every eps, and the returned box contains the curve's end points, contains both ends of every Bezier piece, and is contained in the box of the Bezier control points.", "quantifier": "every well-formed curve with degree >=1 and interior multiplicities <= degree, every eps", "why_tests_cant": "recursion depth is data dependent", "anchors": ["src/Curve/Curve.cpp", "Curve::GetBoundingBox"]}
{"id": "C40", "title": "GetBoundingBox contains the curve", "statement": "Every point Evaluate(x) lies in GetBoundingBox(eps) enlarged by eps.", "quantifier": "every well-formed curve, eps>0, x", "why_tests_cant": "continuum", "anchors": ["src/Curve/Curve.cpp", "include/libnurbs/Core/BoundingBox.hpp", "Curve::GetBoundingBox"]}
{"id": "C41", "title": "Curve::BinarySearchParameter stays in the domain and stops", "statement": "For eps>=0, BinarySearchParameter evaluates the curve only at parameters in [0,1], performs at most max_iteration_count iterations and returns a parameter in [0,1]; an early return has residual not larger than at both probes and (residual < eps or bracket < eps).", "quantifier": "every well-formed curve, point, eps >= 0, iteration limit", "why_tests_cant": "search path depends on the data", "anchors": ["src/Curve/Curve.cpp", "Curve::BinarySearchParameter"]}
{"id": "C42", "title": "Curve::SearchParameter stays in the domain and stops", "statement": "For init in [0,1], SearchParameter evaluates only inside [0,1], performs at most max_iteration_count iterations, returns a parameter in [0,1], and if it stops before the limit the distance of the returned point to the target is < eps.", "quantifier": "every well-formed curve, point, init in [0,1], finite eps (eps <= DBL_MAX), limit", "why_tests_cant": "search path depends on the data", "anchors": ["src/Curve/Curve.cpp", "Curve::SearchParameter"]}
{"id": "C43", "title": "Surface::Evaluate is the tensor-product NURBS point", "statement": "For a well-formed surface and (u,v) in [0,1]^2, Evaluate(u,v) equals the rational tensor-product sum over the whole control grid, with no out-of-bounds access or division by zero.", "quantifier": "every well-formed surface, every u,v", "why_tests_cant": "continuum", "anchors": ["src/Surface/Surface.cpp", "Surface::Evaluate"]}
{"id": "C44", "title": "Surface corners, hull and boundary curves", "statement": "Evaluate at the four corners gives the corner control points; every half-space containing all control points contains Evaluate(u,v); Evaluate(u,0) and Evaluate(0,v) (and at 1) are the boundary control rows' curves.", "quantifier": "every well-formed surface", "why_tests_cant": "continuum", "anchors": ["src/Surface/Surface.cpp", "Surface::Evaluate"]}
{"id": "C45", "title": "Surface::EvaluateAll returns the true partial derivatives", "statement": "Entry (k,l) of EvaluateAll(u,v,order_u,order_v) is the mixed partial derivative d^k/du^k d^l/dv^l of Evaluate at (u,v) (one-sided at knots).", "quantifier": "every well-formed surface, u, v, orders", "why_tests_cant": "derivatives are limits; unbounded orders", "anchors": ["src/Surface/Surface.cpp", "Surface::EvaluateAll", "Surface::HomogeneousDerivative"]}
{"id": "C46", "title": "Surface knot insertion preserves the surface", "statement": "InsertKnotU/InsertKnotV (single, times, list) keep the surface well-formed and Evaluate unchanged everywhere for degree >= 1 and values in (0,1).", "quantifier": "every well-formed surface, every insertion sequence, every u,v", "why_tests_cant": "continuum", "anchors": ["src/Surface/Surface.cpp", "Surface::InsertKnotU", "Surface::InsertKnotV"]}
{"id": "C47", "title": "U and V knot insertions commute", "statement": "InsertKnotU(a).InsertKnotV(b) equals InsertKnotV(b).InsertKnotU(a).", "quantifier": "every well-formed surface with positive weights, every a,b in (0,1)", "why_tests_cant": "continuum", "anchors": ["src/Surface/Surface.cpp", "Surface::InsertKnotU", "Surface::InsertKnotV"]}
{"id": "C48", "title": "Surface knot removal that reports failure returns the original surface", "statement": "RemoveKnotU/RemoveKnotV returning 0 return exactly the input surface.", "quantifier": "every surface with at least one row (RemoveKnotU) / column (RemoveKnotV) of control points, knot, times, tolerance", "why_tests_cant": "any mixture of rows that succeed or fail", "anchors": ["src/Surface/Surface.cpp", "Surface::RemoveKnotU", "Surface::RemoveKnotV"]}
{"id": "C49", "title": "Surface degree elevation works for every surface", "statement": "ElevateDegreeU/V(times) succeed on every well-formed surface and return a well-formed surface of the raised degree with the same Evaluate.", "quantifier": "every well-formed surface, times>=1", "why_tests_cant": "grid width depends on the number of interior knots", "anchors": ["src/Surface/Surface.cpp", "Surface::ElevateDegreeU", "Surface::ElevateDegreeV"]}
{"id": "C50", "title": "AlignParameterDomain only re-parametrises", "statement": "AlignParameterDomain(a,b) returns a well-formed surface that is the input with u,v optionally swapped and/or reversed: Evaluate'(u,v) = Evaluate(u',v') where (u',v') is obtained from (u,v) by the same swap and reversals; it never moves the point set, and calling it on a surface with fewer than 2x2 control points returns it unchanged.", "quantifier": "every well-formed surface, every axis pair, every u,v", "why_tests_cant": "continuum; all branch combinations", "anchors": ["src/Surface/Surface.cpp", "Surface::AlignParameterDomain", "KnotVector::Reverse"]}
{"id": "C51", "title": "Surface searches stay in the domain and on the fixed line", "statement": "SearchParameter, SearchParameterOn and BinarySearchParameterOn return parameters in [0,1], SearchParameterOn/BinarySearchParameterOn return the constant unchanged in the coordinate selected by direction, iterations are bounded by max_iteration_count, and stopping early implies residual < eps for the BFGS searches.", "quantifier": "every surface, point, start, eps, limit", "why_tests_cant": "search path depends on the data", "anchors": ["src/Surface/Surface.cpp", "Surface::SearchParameter", "Surface::SearchParameterOn", "Surface::BinarySearchParameterOn"]}
{"id": "C52", "title": "GeomSegment builds the straight segment", "statement": "For Degree>=1 and ControlPointCount>=Degree+1, GetCurve() is well-formed, starts at LeftPoint, ends at RightPoint and every Evaluate(x) is LeftPoint + s(RightPoint-LeftPoint) with 0<=s<=1.", "quantifier": "every degree, count, end points, x", "why_tests_cant": "continuum", "anchors": ["src/Geometry/GeomSegment.cpp", "src/Geometry/GeomRect.cpp", "GeomSegment::GetCurve"]}
{"id": "C53", "title": "GeomRect spans its four corner points", "statement": "GetSurface() of a GeomRect is well-formed and evaluates to LeftBottom, RightBottom, LeftTop, RightTop at (0,0),(1,0),(0,1),(1,1).", "quantifier": "every degree, count and corner points", "why_tests_cant": "all corner combinations", "anchors": ["src/Geometry/GeomSegment.cpp", "src/Geometry/GeomRect.cpp", "GeomRect::GetSurface"]}
{"id": "C54", "title": "Binary curve files round-trip bit for bit", "statement": "LoadFromFile of what SaveToFile(binary) wrote restores Degree, knots and control points with identical bits (including NaN and infinities), into any target object, for fewer than 2^31 knots and points.", "quantifier": "every curve, every previous content of the target", "why_tests_cant": "all bit patterns and sizes", "anchors": ["src/Utils/Serialization.cpp", "src/Curve/Curve.cpp", "Curve::SaveToFile", "Curve::LoadFromFile"]}
{"id": "C55", "title": "Truncated binary files are never accepted", "statement": "Loading any strict prefix of a binary file written by SaveToFile throws.", "quantifier": "every curve/surface, every cut position (crash point)", "why_tests_cant": "every crash point of every file", "anchors": ["src/Utils/Serialization.cpp", "src/Curve/Curve.cpp", "src/Surface/Surface.cpp", "LoadFromFile"]}
{"id": "C56", "title": "Binary surface files round-trip bit for bit", "statement": "The same for surfaces whose grid storage matches positive dimensions.", "quantifier": "every surface", "why_tests_cant": "all bit patterns and sizes", "anchors": ["src/Utils/Serialization.cpp", "src/Surface/Surface.cpp", "Surface::SaveToFile", "Surface::LoadFromFile"]}
{"id": "C57", "title": "Text files round-trip", "statement": "LoadFromFile of what SaveToFile(text) wrote into a fresh object restores exactly the same curve.", "quantifier": "every curve with finite entries", "why_tests_cant": "all doubles; fixed notation with 17 decimals", "anchors": ["src/Utils/Serialization.cpp", "src/Curve/Curve.cpp", "Curve::SaveToFile", "Curve::LoadFromFile"]}
{"id": "C58", "title": "Loading replaces the previous content", "statement": "LoadFromFile into an object that already holds data gives the same object as loading into a fresh one.", "quantifier": "every file and previous content", "why_tests_cant": "any history of loads on one object", "anchors": ["src/Curve/Curve.cpp", "src/Surface/Surface.cpp", "LoadFromFile"]}
{"id": "C59", "title": "Headers are checked", "statement": "LoadFromFile throws unless the first line's first three whitespace-separated words are LIBNURBS, TXT or BIN, and the object type.", "quantifier": "every byte sequence", "why_tests_cant": "all inputs", "anchors": ["src/Curve/Curve.cpp", "src/Surface/Surface.cpp", "LoadFromFile"]}
{"id": "C60", "title": "TrimString removes exactly the surrounding white space", "statement": "TrimString(s) is the longest infix of s that neither starts nor ends with white space; it is idempotent.", "quantifier": "every string", "why_tests_cant": "all strings", "anchors": ["src/Utils/Serialization.cpp", "TrimString"]}
{"id": "C61", "title": "RemoveKnot stays inside its arrays", "statement": "RemoveKnot(u,times,tolerance) performs no out-of-range access, assertion failure or exception: it returns a curve, or a resulting weight is zero and the last division is not finite.", "quantifier": "every well-formed curve, 1 <= times <= multiplicity of u <= degree, other knots at least 1e-6 away, every tolerance >= 0", "why_tests_cant": "indices depend on degree, multiplicity, times and on which round fails", "anchors": ["src/Curve/Curve.cpp", "src/Algorithm/KnotRemoval.cpp", "Curve::RemoveKnot", "KnotRemoval"]}
{"id": "C62", "title": "Surface knot removal undoes insertion", "statement": "RemoveKnotU(v,1,eps) after InsertKnotU(v) succeeds (returns 1) for every eps >= 0 and gives back the original surface; the same for V.", "quantifier": "every well-formed surface of degree >= 1 in the direction, every v in (0,1) of multiplicity at most degree+1 whose other knots are at least 1e-6 away", "why_tests_cant": "continuum; all rows must agree", "anchors": ["src/Surface/Surface.cpp", "src/Algorithm/KnotRemoval.cpp", "Surface::RemoveKnotU", "Surface::RemoveKnotV"]}
{"id": "C63", "title": "Exact successful surface knot removal preserves the surface", "statement": "If RemoveKnotU(u,times,0) returns times, with times <= multiplicity of u, the result has `times` fewer u knots and columns and Evaluate is unchanged everywhere; the same for V.", "quantifier": "every well-formed surface, every u in (0,1) of multiplicity at most degree+1 whose other knots are at least 1e-6 away, every such times", "why_tests_cant": "continuum; success must be common to all rows", "anchors": ["src/Surface/Surface.cpp", "src/Algorithm/KnotRemoval.cpp", "Surface::RemoveKnotU", "Surface::RemoveKnotV"]}
{"id": "C64", "title": "Alignment points the parameters along the requested axes", "statement": "If the u and v edges at the first corner of the control grid have dominant axes A and B (A != B), then after AlignParameterDomain(a,b) with {a,b} = {A,B} the u edge at the first corner of the result points in the positive direction of a and the v edge in that of b; a surface that is already aligned is returned unchanged.", "quantifier": "every well-formed surface with at least 2x2 control points", "why_tests_cant": "continuum of shapes; 3x3 axes, all signs", "anchors": ["src/Surface/Surface.cpp", "Surface::AlignParameterDomain"]}
{"id": "C65", "title": "Surface text files round-trip", "statement": "LoadFromFile of what Surface::SaveToFile(text) wrote into a fresh object restores exactly the same surface.", "quantifier": "every surface with finite entries whose grid storage matches positive dimensions", "why_tests_cant": "all doubles and sizes; fixed notation with 17 decimals", "anchors": ["src/Utils/Serialization.cpp", "src/Surface/Surface.cpp", "Surface::SaveToFile", "Surface::LoadFromFile"]}
{"id": "C66", "title": "A failed load leaves the object unchanged", "statement": "If LoadFromFile throws, the object still has the content it had before the call.", "quantifier": "every byte sequence, every previous content", "why_tests_cant": "every position at which a file can become invalid", "anchors": ["src/Utils/Serialization.cpp", "src/Curve/Curve.cpp", "src/Surface/Surface.cpp", "LoadFromFile"]}
{"id": "C67", "title": "Truncated text files are never accepted", "statement": "Loading any strict prefix of a text file written by SaveToFile throws.", "quantifier": "every curve/surface, every cut position (crash point)", "why_tests_cant": "every crash point of every file", "anchors": ["src/Utils/Serialization.cpp", "src/Curve/Curve.cpp", "src/Surface/Surface.cpp", "LoadFromFile"]}
{"id": "C68", "title": "Rounded basis values have a small relative error", "statement": "With arithmetic that rounds (relative error u per operation, no overflow or underflow), BSplineBasis::Evaluate succeeds without a division by zero, returns p+1 non-negative values that are zero exactly where the basis function is zero, each with relative error at most (1-u)^(-6p)-1 against the Cox-de Boor value, and their sum is that close to 1.", "quantifier": "every rounding function that is monotone, odd, idempotent and has unit roundoff u < 1 (double among them), every clamped knot vector and x in [0,1] of representable numbers, every degree", "why_tests_cant": "rounding errors depend on all bits of all knots; tests compare with a tolerance at samples", "anchors": ["src/Basis/BSplineBasis.cpp", "BSplineBasis::Evaluate"]}
{"id": "C69", "title": "Rounded curve points have a bounded error", "statement": "With rounding arithmetic Curve::Evaluate succeeds and every coordinate differs from the true NURBS point by at most ((1-u)^(-14p-6)-1) times the weighted mean of the absolute coordinates of the control points (for double and degree 3: 5.4e-15 times the largest coordinate).", "quantifier": "every such rounding, every well-formed curve of representable numbers, every representable x in [0,1]", "why_tests_cant": "continuum of inputs; worst-case rounding", "anchors": ["src/Curve/Curve.cpp", "src/Basis/BSplineBasis.cpp", "Curve::Evaluate"]}
{"id": "C70", "title": "Rounded surface points have a bounded error", "statement": "With rounding arithmetic Surface::Evaluate succeeds and every coordinate differs from the true point by at most ((1-u)^(-14(p+q)-10)-1) times the weighted mean of the absolute coordinates of the control points.", "quantifier": "every such rounding, every well-formed surface of representable numbers, all representable u,v in [0,1]", "why_tests_cant": "continuum of inputs; worst-case rounding", "anchors": ["src/Surface/Surface.cpp", "src/Basis/BSplineBasis.cpp", "Surface::Evaluate"]}
{"id": "C71", "title": "Uniform works with rounding", "statement": "With rounding arithmetic KnotVector::Uniform does not throw, its result is clamped (interior knots sorted, strictly between 0 and 1) and each interior knot has relative error at most (1-u)^(-2)-1.", "quantifier": "every degree and number of interior knots a with the integers up to a+1 representable and 2u(a+1) < 1; in double every int", "why_tests_cant": "all counts up to 2^31", "anchors": ["src/Core/KnotVector.cpp", "include/libnurbs/Core/KnotVector.hpp", "KnotVector::Uniform"]}
{"id": "C72", "title": "Reverse with rounding mirrors the knots", "statement": "With rounding arithmetic Reverse keeps a valid knot vector valid, gives every new knot 1-t with one rounding error, keeps the multiplicities and is its own inverse.", "quantifier": "every valid knot vector of representable numbers", "why_tests_cant": "tiny knots and non-dyadic knots", "anchors": ["src/Core/KnotVector.cpp", "include/libnurbs/Core/KnotVector.hpp", "KnotVector::Reverse"]}
{"id": "C73", "title": "Rounded curves pass through their end control points", "statement": "With rounding arithmetic Evaluate(0) and Evaluate(1) return exactly the first and the last control point.", "quantifier": "every such rounding, every well-formed curve of representable numbers", "why_tests_cant": "weights and knots whose products round", "anchors": ["src/Curve/Curve.cpp", "Curve::Evaluate"]}
{"id": "C74", "title": "Rounded knot insertion hardly moves the curve", "statement": "With rounding arithmetic Curve::InsertKnot (one value, a list, or a value several times) never divides by zero, returns a well-formed curve whose knots are exactly the old ones and the new ones, and the exact curve it stands for differs from the old one by at most 4((1-u)^(-14m)-1)(hi/lo)B in each coordinate at every parameter, for m inserted knots, weights in [lo,hi] and coordinates in [-B,B] (double, equal weights, m=1: 4.9e-15 B).", "quantifier": "every such rounding, every well-formed curve of representable numbers, all representable values in (0,1), every parameter; degree >= 1 for the single-value overload", "why_tests_cant": "continuum; worst-case rounding, and drift over many insertions", "anchors": ["src/Curve/Curve.cpp", "Curve::InsertKnot"]}
{"id": "C75", "title": "Rounded knot insertion hardly moves the surface", "statement": "With rounding arithmetic Surface::InsertKnotU and InsertKnotV (one value, a list, or a value several times) never divide by zero, return a well-formed surface whose knots in that direction are exactly the old ones and the new ones and whose other knots are unchanged, and the exact surface it stands for differs from the old one by at most 4((1-u)^(-14t)-1)(hi/lo)B in each coordinate at every parameter pair, for t inserted knots, weights in [lo,hi] and coordinates in [-B,B].", "quantifier": "every such rounding, every well-formed surface of representable numbers with degree at least one in the direction, all representable values in (0,1), every parameter pair", "why_tests_cant": "continuum; worst-case rounding, and drift over many insertions", "anchors": ["src/Surface/Surface.cpp", "Surface::InsertKnotU", "Surface::InsertKnotV"]}
{"id": "C76", "title": "Centre, lengths and volume of a box", "statement": "BoundingBox::Center is the point about which the box is symmetric and lies in every non-empty box; Length is, along each axis, the largest difference of two points of the box, and is attained; Volume is 1 for the unit cube, unchanged by translation, additive when the box is cut by a coordinate plane, not negative for a non-empty box and monotone under inclusion.", "quantifier": "every box, every point, every cutting plane", "why_tests_cant": "unbounded real arguments", "anchors": ["include/libnurbs/Core/BoundingBox.hpp", "BoundingBox::Center", "BoundingBox::Length", "BoundingBox::Volume"]}
{"id": "C77", "title": "Bisection finds the nearest point of a single valley", "statement": "If the distance of the curve point to P falls strictly until the parameter m and rises strictly afterwards, BinarySearchParameter returns a parameter within epsilon of m, or within 2^-(max_iteration_count+1) if that is more; the same for BinarySearchParameterOn along its line; in particular on a segment it finds the foot of the perpendicular.", "quantifier": "every well-formed curve/surface, every point, every m in [0,1], epsilon > 0, every limit", "why_tests_cant": "continuum of curves and points; the probes at mid -/+ epsilon matter only near the minimum", "anchors": ["src/Curve/Curve.cpp", "src/Surface/Surface.cpp", "Curve::BinarySearchParameter", "Surface::BinarySearchParameterOn"]}
{"id": "C78", "title": "A search never ends farther away than it started", "statement": "The point found by SearchParameter (curve, surface) or SearchParameterOn is not farther from the given point than the start.", "quantifier": "every well-formed curve/surface, every point, every start, tolerance and limit", "why_tests_cant": "continuum of starts", "anchors": ["src/Curve/Curve.cpp", "src/Surface/Surface.cpp", "Curve::SearchParameter", "Surface::SearchParameter", "Surface::SearchParameterOn"]}
{"id": "C79", "title": "On a straight line the descent search reaches the foot of the perpendicular in two iterations", "statement": "On a curve that is the straight line a + u(b-a), Curve::SearchParameter with at least two iterations ends exactly at the parameter of the nearest point, or stops at a point closer than epsilon; the same for Surface::SearchParameterOn along a straight line of constant parameter.", "quantifier": "every well-formed curve/surface that is such a line (any degree, any knots, any weights), every start in [0,1]; curves: ends within 5000 of the point; first step squared times its curvature at least 1e-16", "why_tests_cant": "continuum; the update formula of the quasi-Newton method must be exactly right", "anchors": ["src/Curve/Curve.cpp", "src/Surface/Surface.cpp", "Curve::SearchParameter", "Surface::SearchParameterOn"]}
{"id": "C80", "title": "Alignment of patches with a collapsed edge", "statement": "If one of the four corner edges is collapsed (not longer than 1e-6) and the others run along two axes, AlignParameterDomain for these axes makes every remaining u edge point in the positive direction of u_axis and every remaining v edge in that of v_axis.", "quantifier": "every well-formed surface of at least 2x2 control points with such a corner triangle whose box is thinnest along the third axis", "why_tests_cant": "continuum of shapes; ties and orders of the extents", "anchors": ["src/Surface/Surface.cpp", "Surface::AlignParameterDomain"]}
{"id": "C81", "title": "Rounded derivatives are consistent across orders", "statement": "With rounding arithmetic BSplineBasis::EvaluateAll/EvaluateDerivative, Curve::EvaluateAll/EvaluateDerivative and Surface::EvaluateAll/EvaluateDerivative succeed (no division by zero, no access out of range); a derivative does not depend in a single bit on the highest order asked for; order 0 is bit for bit what Evaluate returns; basis derivatives of order above the degree are exactly zero.", "quantifier": "every such rounding, every well-formed curve/surface of representable numbers, all representable parameters in [0,1]; every order for the basis, up to 29 for curves, for surfaces while the binomial products fit an int", "why_tests_cant": "continuum of inputs times all pairs of orders; rounding of every intermediate value", "anchors": ["src/Basis/BSplineBasis.cpp", "src/Curve/Curve.cpp", "src/Surface/Surface.cpp", "BSplineBasis::EvaluateAll", "Curve::EvaluateAll", "Surface::EvaluateAll"]}
{"id": "C82", "title": "Rounded derivatives have a bounded error", "statement": "With rounding arithmetic every derivative of order m of a basis function returned by BSplineBasis::EvaluateAll differs from the true one by at most (1-u)^(-6p-m-2)-1 times the sum of the absolute values of the terms of the derivative, and every coordinate of the m-th derivative returned by Curve::EvaluateAll by at most (1-u)^(-(m+1)(14p+2m+11))-1 times the sum of the absolute values of the terms of the quotient rule (tangent of a cubic in double: 1.3e-14 times that sum).", "quantifier": "every such rounding, every clamped knot vector / well-formed curve of representable numbers, all representable parameters in [0,1], every order (curves: up to 29)", "why_tests_cant": "continuum of inputs; differences of nearly equal numbers", "anchors": ["src/Basis/BSplineBasis.cpp", "src/Curve/Curve.cpp", "BSplineBasis::EvaluateAll", "Curve::EvaluateAll"]}
{"id": "C83", "title": "The searches stay in the domain and end, rounding included", "statement": "With rounding arithmetic and any square root function, Curve::SearchParameter, Surface::SearchParameter, SearchParameterOn, Curve::BinarySearchParameter and BinarySearchParameterOn never fail: they evaluate only at parameters in [0,1], never divide by zero, do at most max_iteration_count iterations (rounded up) and return parameters in [0,1]. A descent search that stops before the limit has a computed distance below epsilon; a bisection that stops before the limit has a computed distance not larger than at its two probes.", "quantifier": "every such rounding, every function sqrt on representable numbers, every well-formed curve/surface of representable numbers, every point, every start in [0,1], every limit; finite epsilon for the descent searches, epsilon >= 0 for the bisections", "why_tests_cant": "rounding may push a computed parameter out of [0,1] or make a divisor vanish for rare inputs only", "anchors": ["src/Curve/Curve.cpp", "src/Surface/Surface.cpp", "Curve::SearchParameter", "Curve::BinarySearchParameter", "Surface::SearchParameter", "Surface::SearchParameterOn", "Surface::BinarySearchParameterOn"]}
{"id": "C84", "title": "On a flat patch the surface search reaches the nearest point in two iterations", "statement": "On a surface that is the plane patch o + u(a-o) + v(b-o), Surface::SearchParameter with at least two iterations ends exactly at the parameters of the nearest point, or stops at a point closer than epsilon: on a square of side at most 1 from every start, on a rectangle of any size from every start level with the nearest point, and in general whenever the first step points at it.", "quantifier": "every well-formed surface that is such a patch (any degree, any knots, any weights), corners within 5000 of the point, nearest point inside the patch; first step squared times its curvature at least 1e-16", "why_tests_cant": "continuum; the matrix update of the quasi-Newton method must be exactly right", "anchors": ["src/Surface/Surface.cpp", "Surface::SearchParameter"]}
{"id": "C85", "title": "Text files are stable", "statement": "Every curve or surface of finite numbers can be saved as text and loaded into a new object; every number comes back finite, with the same sign bit and within 10^-17 (exactly if it is at least 1/16 or a multiple of 2^-17); the loaded object is saved as the same file byte for byte, so further saving and loading changes nothing.", "quantifier": "every curve/surface of finite doubles whose degrees and counts fit an int", "why_tests_cant": "2^64 doubles; numbers below 1/16 do change once", "anchors": ["src/Curve/Curve.cpp", "src/Surface/Surface.cpp", "src/Utils/Serialization.cpp", "Curve::SaveToFile", "Curve::LoadFromFile", "Surface::SaveToFile", "Surface::LoadFromFile"]}
{"id": "C86", "title": "Curves and surfaces are smooth at the knots", "statement": "At an interior knot of multiplicity s the curve of degree p has p-s continuous derivatives, and EvaluateAll returns them there; the derivative of order r returned by Curve::EvaluateDerivative is continuous on the whole of [0,1] if every interior knot has multiplicity at most p-r (r = 0: the curve itself); without room for the derivative it is the one from the right (at 1: from the left), and it may jump. The same for the basis functions, and for surfaces in both parameters together.", "quantifier": "every clamped knot vector, every well-formed curve/surface, all parameters, orders up to 29 (surfaces: binomial products within int)", "why_tests_cant": "continuity is a statement about all parameters around the knot; tests sample", "anchors": ["src/Basis/BSplineBasis.cpp", "src/Curve/Curve.cpp", "src/Surface/Surface.cpp", "BSplineBasis::EvaluateAll", "Curve::EvaluateAll", "Curve::EvaluateDerivative", "Surface::EvaluateAll", "Surface::EvaluateDerivative"]}
{"id": "C87", "title": "Knot removal within a tolerance moves the curve by at most the tolerance", "statement": "If Curve::RemoveKnot(u, times, eps) returns times, the new curve has times copies of u and times control points fewer and differs from the old one, at every parameter, by at most times*eps (Euclidean distance). (Holds for polynomial curves, even with times*eps/(1+D), D the largest distance of a control point from the origin; for rational curves the code compares with weight times distance instead of the distance, so that the curve can move by any multiple of eps: there d <= times*eps*sqrt(1+|C|^2)/(1+D-times*eps) with D the largest weight times distance.) Surface::RemoveKnotU/V satisfy the same bounds, with D at most the value of every row (column).", "quantifier": "every well-formed curve and surface, every interior knot of multiplicity at most the degree, every number of removals up to the multiplicity, every tolerance, every parameter", "why_tests_cant": "continuum of curves and parameters; the error of a removal is spread over several control points and only one distance is compared", "anchors": ["src/Curve/Curve.cpp", "src/Surface/Surface.cpp", "Curve::RemoveKnot", "Surface::RemoveKnotU", "Surface::RemoveKnotV", "KnotRemoval", "CalcTOL"]}
{"id": "C88", "title": "Knot removal returns a well-formed curve", "statement": "Curve::RemoveKnot on a well-formed curve returns a curve whose control points are finite and whose weights are positive, and if the number of removals returned is the one asked for, the curve is well-formed. (False for rational curves: the new weights are solved for and divided by without a test, so that well-formed curves give a weight 0, with infinite or NaN coordinates, or a negative weight. Holds for polynomial curves, where all new weights are 1, also for RemoveKnotU and RemoveKnotV of polynomial surfaces, and for one removal of a knot of full multiplicity.)", "quantifier": "every well-formed curve, every interior knot of multiplicity at most the degree, every tolerance >= 0 and every square root function", "why_tests_cant": "the weights become 0 on a thin set of inputs only", "anchors": ["src/Curve/Curve.cpp", "src/Surface/Surface.cpp", "Curve::RemoveKnot", "Surface::RemoveKnotU", "Surface::RemoveKnotV", "KnotRemoval"]}
{"id": "C89", "title": "Refinement stays in the convex hull", "statement": "Knot insertion, Bezier extraction and degree elevation never overshoot: every half-space that contains all old control points contains all new ones (so the new ones are in the convex hull, and any bounding box of the old control points contains the new ones), and every new weight lies between the smallest and the largest old weight. The same for the surface versions.", "quantifier": "every well-formed curve/surface of degree at least 1, every list of knots in (0,1), every half-space; elevation in the cases in which it works (C36, C49)", "why_tests_cant": "continuum of curves, knots and half-spaces", "anchors": ["src/Curve/Curve.cpp", "src/Surface/Surface.cpp", "Curve::InsertKnot", "Curve::ExtractBezier", "Curve::ElevateDegree", "Surface::InsertKnotU", "Surface::InsertKnotV", "Surface::ElevateDegreeU", "Surface::ElevateDegreeV"]}
{"id": "C90", "title": "Derivatives at the ends and along the edges", "statement": "The first derivative at 0 is p/U[p+1] * w1/w0 * (P1-P0), the one at 1 is p/(1-U[n]) * w[n-1]/w[n] * (P[n]-P[n-1]), so curves leave and arrive along the legs of the control polygon. Along each of the four edges of a surface the derivatives in the direction of the edge are those of the curve of the first or last row or column of control points. The rows of BSplineBasis::EvaluateAll from the second on sum to zero.", "quantifier": "every well-formed curve and surface, all weights and knots, every parameter along the edge, every order up to 29", "why_tests_cant": "continuum; tests compare a few derivatives at inner parameters", "anchors": ["src/Basis/BSplineBasis.cpp", "src/Curve/Curve.cpp", "src/Surface/Surface.cpp", "BSplineBasis::EvaluateAll", "Curve::EvaluateDerivative", "Surface::EvaluateDerivative"]}
{"id": "C91", "title": "Editing and searching do not depend on where the curve is placed", "statement": "Moving a curve or surface (a linear map R as in Transform, a translation, a common positive factor for the weights) and then evaluating, differentiating, inserting knots, extracting Bezier pieces or elevating the degree gives the same as doing it first and moving the result (derivatives: R applied). With R a rotation or reflection, all searches return the same parameters for the moved point on the moved curve/surface, and knot removal commutes with Transform. Elevation and removal commute with Transform for every input whatsoever, including those on which they fail. (Removal does not commute with translations: the tolerance shrinks with the distance from the origin.)", "quantifier": "every well-formed curve/surface, every placement, all parameters, points, knots, start values, limits and square root functions; elevation and removal: every curve/surface object, every number of times and every tolerance", "why_tests_cant": "continuum of placements; a formula that mixes up coordinates is right for symmetric inputs", "anchors": ["src/Curve/Curve.cpp", "src/Surface/Surface.cpp", "Curve::Transform", "Curve::ElevateDegree", "Curve::RemoveKnot", "Curve::SearchParameter", "Curve::ExtractBezier", "Surface::Transform", "Surface::ElevateDegreeU", "Surface::RemoveKnotU", "Surface::SearchParameter"]}
{"id": "C92", "title": "The way to a refined curve does not matter", "statement": "Elevating the degree by a and then by b gives the same object as elevating by a+b at once; inserting knots and then elevating gives the same object as elevating first and inserting then (t more copies of every value that was not a knot). The points determine the object: two curves or surfaces of the same degrees with the same knots and weights that evaluate to the same points have the same control points.", "quantifier": "every well-formed curve/surface with interior multiplicities up to degree + 1, every list of knots; elevation in the cases in which it works (C36, C37)", "why_tests_cant": "equality of objects for a continuum of inputs; the two computations share no intermediate values", "anchors": ["src/Curve/Curve.cpp", "src/Surface/Surface.cpp", "Curve::ElevateDegree", "Curve::InsertKnot", "Curve::Evaluate", "Surface::Evaluate"]}
{"id": "C93", "title": "The curve crosses no plane more often than its control polygon", "statement": "If n+1 points of a curve with increasing parameters are on alternating sides of a plane (n crossings), there are n+1 control points, in order, on the same sides. Knot insertion adds no crossings to the control polygon. In particular the curve advances in every direction in which its control points advance. (Positive weights are needed.)", "quantifier": "every well-formed curve, every plane, every finite list of parameters in [0,1], every list of inserted knots in (0,1)", "why_tests_cant": "a statement about all planes and all finite sets of parameters together", "anchors": ["src/Curve/Curve.cpp", "Curve::Evaluate", "Curve::InsertKnot"]}
{"id": "C94", "title": "Rounded Bezier extraction hardly moves the curve", "statement": "With rounding, Curve::ExtractBezier returns one well-formed Bezier curve of the same degree for each knot interval; the piece of [a,b] at t differs from the curve at a + t(b-a), in every coordinate, by at most 4*((1-u)^(-14N) - 1)*(hi/lo)*B, where N is the number of added control points, B the largest coordinate and lo, hi the smallest and largest weight (double, equal weights: 6.3e-15*N*B). Neighbouring pieces share their end control point exactly.", "quantifier": "every well-formed curve with interior multiplicities up to the degree, every rounding with unit roundoff u, every parameter", "why_tests_cant": "tests compare a few points of two curves; the bound holds for every knot vector, and the pieces join without a gap of even one bit", "anchors": ["src/Curve/Curve.cpp", "Curve::ExtractBezier", "Curve::InsertKnot"]}
{"id": "C95", "title": "Rounded degree elevation of Bezier curves and surfaces hardly moves them", "statement": "With rounding, Curve::ElevateDegree(t) of a curve with p+1 control points (and Surface::ElevateDegreeU/V of a surface with p+1 control points in that direction) returns a well-formed curve (surface) of degree p+t with p+t+1 control points, whose points differ from those of the given one, in every coordinate, by at most 2*((1-u)^(-(2p+18)) - 1)*(hi/lo)*B, B the largest coordinate and lo, hi the smallest and largest weight (double, equal weights: 4.5e-16*(p+9)*B). The bound does not depend on t.", "quantifier": "every well-formed Bezier curve/surface, degrees p >= 1, t >= 1, p+t <= 29, every rounding with unit roundoff u, every parameter", "why_tests_cant": "tests elevate one curve once and compare with a tolerance of 1e-9", "anchors": ["src/Curve/Curve.cpp", "src/Surface/Surface.cpp", "Curve::ElevateDegree", "Surface::ElevateDegreeU", "Surface::ElevateDegreeV", "NurbsDegreeElevation", "Binomial"]}
{"id": "C96", "title": "A curve or surface can be run through backwards", "statement": "Reversing the knots (KnotVector::Reverse) and the control points gives a well-formed curve with the same points, at the parameters 1-x, and with (-1)^r times the derivatives of order r. Insertion, Bezier extraction and degree elevation do not depend on the direction: done to the reversed curve they give the reversed result (inserted values 1-v; Bezier pieces in the opposite order, each reversed). (False of elevation from degree 10 on, where one direction can be wrong and the other right.) For surfaces, and either direction alone: reversing KnotsU and the control points along u gives a well-formed surface with the same points at (1-u, v), (-1)^a times the mixed derivatives of orders (a, b), the same result of inserting 1-x in u, and insertion in v does not notice; and so for v.", "quantifier": "every well-formed curve; points: every parameter but interior knots of multiplicity above the degree; derivatives: every parameter but interior knots, orders up to 29; insertion: every list; extraction: multiplicities up to the degree; elevation in the cases in which it works in both directions; every well-formed surface", "why_tests_cant": "symmetry for a continuum of curves; off-by-one errors at one end of a loop break it", "anchors": ["KnotVector::Reverse", "src/Curve/Curve.cpp", "Curve::Evaluate", "Curve::EvaluateDerivative", "Curve::InsertKnot", "Curve::ExtractBezier", "Curve::ElevateDegree", "src/Surface/Surface.cpp", "Surface::Evaluate", "Surface::EvaluateDerivative", "Surface::InsertKnotU", "Surface::InsertKnotV"]}
{"id": "C97", "title": "What is done elsewhere does not change a bit", "statement": "With rounding, the point and the derivatives returned at a parameter depend, bit for bit, on nothing but the p knots on either side of its knot span and the p+1 control points of the span. So moving a control point changes no bit outside its p+1 spans; inserting a knot in the span k copies the control points up to k-p and from k on exactly and changes no bit of points and derivatives before U[k-p+1] and from U[k+p] on; the same for surfaces and InsertKnotU/V. Which knots and points Evaluate and EvaluateAll read does not depend on the arithmetic or on the objects being well-formed: two objects agreeing in them give the same outcome, be it a value, an assertion or an access out of range.", "quantifier": "every well-formed curve/surface, every rounding, every parameter in [0,1], every order up to 29 (surfaces: as long as the binomial products fit into an int)", "why_tests_cant": "equality of floating-point results for all data elsewhere", "anchors": ["src/Basis/BSplineBasis.cpp", "src/Curve/Curve.cpp", "src/Surface/Surface.cpp", "Curve::Evaluate", "Curve::EvaluateAll", "Curve::InsertKnot", "Surface::Evaluate", "Surface::EvaluateAll", "Surface::InsertKnotU", "Surface::InsertKnotV"]}
{"id": "C98", "title": "Lines and polynomials are reproduced on every knot vector", "statement": "The values N that BSplineBasis::Evaluate returns at x in the span k satisfy Marsden's identity sum_n N_n * prod_(j=1..p) (y - U[k-p+n+j]) = (y-x)^p for every y. So a curve with equal weights whose control points are A + g_i*B, g_i the mean of the knots U[i+1..i+p], is the line A + x*B run through at constant speed, and on every clamped knot vector every polynomial path of degree at most p is the path of a curve with weights one. Surfaces: with equal weights and control points A + g_i*B + h_j*C + g_i*h_j*D the surface is the bilinear patch A + u*B + v*C + u*v*D, and on every pair of clamped knot vectors every polynomial map of degrees at most p in u and q in v is a surface with weights one.", "quantifier": "every clamped knot vector, every x in [0,1], every y; every line; every triple of polynomials of degree at most p (p in u and q in v)", "why_tests_cant": "an identity between polynomials in two unknowns on arbitrary knots", "anchors": ["src/Basis/BSplineBasis.cpp", "src/Curve/Curve.cpp", "src/Surface/Surface.cpp", "BSplineBasis::Evaluate", "Curve::Evaluate", "Surface::Evaluate"]}
{"id": "C99", "title": "Velocities form a curve, and its control points bound all chords", "statement": "If all weights of a curve of degree p >= 1 are equal, EvaluateDerivative of order m+1 returns the derivative of order m of the curve of velocities: degree p-1, the knots without the first and the last, control points p*(P_(i+1)-P_i)/(U[i+p+1]-U[i+1]), weights one. A half-space a.V <= b that contains these control points contains every velocity, and if no interior knot is repeated more than p times, a.(C(y)-C(x)) <= b*(y-x) for x <= y.", "quantifier": "every well-formed curve of degree >= 1 with equal weights, every parameter in [0,1], every order up to 28, every half-space, every pair of parameters", "why_tests_cant": "a bound for all pairs of parameters together; two different programs (derivatives of the basis; the basis of another curve) give the same result", "anchors": ["src/Basis/BSplineBasis.cpp", "src/Curve/Curve.cpp", "Curve::EvaluateDerivative", "Curve::EvaluateAll", "Curve::Evaluate", "BSplineBasis::EvaluateAll"]}
{"id": "C100", "title": "The two directions of a surface are interchangeable", "statement": "Exchanging the directions of a surface (degrees, knots, control point (i,j) at (j,i)) gives a well-formed surface with the same points and partial derivatives at exchanged parameters and orders. The separately written functions for u and v do the same: InsertKnotU of the exchanged surface is the exchanged InsertKnotV of the surface (and vice versa), likewise lists of knots, RemoveKnotU/V with the number of removed knots, ElevateDegreeU/V; SearchParameter returns exchanged parameters after the same number of iterations, SearchParameterOn and BinarySearchParameterOn do so with direction 1-d.", "quantifier": "every well-formed surface, all parameters, orders, knots, points, starting values and limits; removal and elevation: every arithmetic (also rounded), every surface whose storage matches its control point numbers, with all outcomes, failures included", "why_tests_cant": "compares two programs that share no code, on all inputs; copy-and-paste errors in one direction show only on surfaces that differ in the two directions", "anchors": ["src/Surface/Surface.cpp", "Surface::Evaluate", "Surface::EvaluateAll", "Surface::InsertKnotU", "Surface::InsertKnotV", "Surface::RemoveKnotU", "Surface::RemoveKnotV", "Surface::ElevateDegreeU", "Surface::ElevateDegreeV", "Surface::SearchParameter", "Surface::SearchParameterOn", "Surface::BinarySearchParameterOn"]}
{"id": "C101", "title": "With one parameter fixed a surface is a curve", "statement": "For fixed v the points S(u,v) are those of the NURBS curve with the degree and knots of u whose control points are the points at v of the curves of control points (i,.), weighted by their denominators: Curve::Evaluate and Curve::EvaluateDerivative of it return Surface::Evaluate(u,v) and Surface::EvaluateDerivative(u,v,a,0); likewise for fixed u. Surface::InsertKnotU inserts the knot into that curve (same control points as Curve::InsertKnot gives); Surface::InsertKnotV leaves all its control points as they are. With equal weights and no interior u knot of multiplicity above the degree, a half-space through the vectors p*(P_(i+1,j)-P_(i,j))/(U[i+p+1]-U[i+1]) bounds every chord S(y,v)-S(x,v), divided by y-x.", "quantifier": "every well-formed surface, all parameters, orders up to 29, all inserted knots, all half-spaces", "why_tests_cant": "relates the curve and the surface class on all inputs; tests check each alone", "anchors": ["src/Curve/Curve.cpp", "src/Surface/Surface.cpp", "Curve::Evaluate", "Curve::EvaluateDerivative", "Curve::InsertKnot", "Surface::Evaluate", "Surface::EvaluateDerivative", "Surface::InsertKnotU", "Surface::InsertKnotV"]}
{"id": "C102", "title": "Circles and surfaces of revolution are exact", "statement": "A curve of degree two with double knots whose control points 2i, 2i+1, 2i+2 are the textbook description of an arc (end points on the circle, tangents meeting in the middle point, weight w1^2*(|P1-o|^2-r^2)*2 = w0*w2*(r^2-(P0-o).(P2-o))) has all its points at distance exactly r from the centre and its first derivative perpendicular to the radius; every point of the circle inside the triangle of an arc is reached. The curve of nine control points is exactly the unit circle: the set of its points is {x^2+y^2=1, z=0}. A surface whose control points are the products of an outline and a profile (weights multiplied) turns the profile along the outline; if the outline is a circle, every point is as far from the axis as the profile.", "quantifier": "every number of arcs, every parameter in [0,1], every point of the circle; every outline and profile of any degrees, all (u,v)", "why_tests_cant": "tests sample a few points with a tolerance; here the equation of the circle holds at every parameter and no point of the circle is missed", "anchors": ["src/Curve/Curve.cpp", "src/Surface/Surface.cpp", "Curve::Evaluate", "Curve::EvaluateDerivative", "Surface::Evaluate"]}
{"id": "C103", "title": "Evaluation in double neither overflows nor returns NaN, underflow included", "statement": "In IEEE 754 binary64 with its finite range (round to nearest even, gradual underflow, overflow) Curve::Evaluate of a curve of finite numbers at a parameter in [0,1] returns finite numbers, each within ((1-u)^(-14p-8) - 1)*B + 2^-729 of the true coordinate, u = 2^-53, B the largest coordinate; so does Surface::Evaluate with 14(p+q)+13 in place of 14p+8; BSplineBasis::Evaluate returns finite non-negative values within ((1-u)^(-6p) - 1)*N + 2^-959 of the basis functions N. (False without limits on the data: knots 2^-1074 apart give infinite basis functions; homogeneous coordinates can overflow although all points are representable.)", "quantifier": "every well-formed curve and surface of finite doubles, degrees up to 29, different neighbouring knots at least 2^-1000 apart, weights within [2^-100, 2^100], coordinates up to 2^400, every double in [0,1]", "why_tests_cant": "the limits concern data nobody puts into a test; the bound is for every intermediate result of every evaluation", "anchors": ["src/Basis/BSplineBasis.cpp", "src/Curve/Curve.cpp", "src/Surface/Surface.cpp", "BSplineBasis::Evaluate", "Curve::Evaluate", "Surface::Evaluate", "typedef Numeric = double"]}
{"id": "C104", "title": "Refining the knots draws the control points to the curve", "statement": "Insert any knots into a curve of degree p with equal weights. The control points of the refined curve's velocities stay in every half-space that contains those of the given curve; if |a.Q| <= b for all of the latter, each point of the curve differs along a from each of the p+1 control points of its refined knot span by at most b*(U'[k+p]-U'[k-p+1]), so by at most (2p-1)*b*h if neighbouring refined knots are at most h apart, b not depending on the refinement. For every eps > 0 there are knots after whose insertion all these distances are at most eps. The same for surfaces with equal weights refined in both directions, with the sum of the two bounds.", "quantifier": "every well-formed curve and surface of degrees >= 1 with equal weights (any multiplicities), all lists of values in (0,1), every direction a, every parameter in [0,1], every eps", "why_tests_cant": "a limit statement: no finite number of refinements shows it; relates InsertKnot, Evaluate and the velocities", "anchors": ["src/Curve/Curve.cpp", "src/Surface/Surface.cpp", "Curve::InsertKnot", "Curve::Evaluate", "Surface::InsertKnotU", "Surface::InsertKnotV", "Surface::Evaluate"]}
{"id": "C105", "title": "Small changes of the data cause small changes of the points", "statement": "Two curves with the same knots whose control points differ by at most d along a direction a and whose weights differ by at most e, the new weights being at least m > 0: at every parameter their points differ along a by at most d + e*D/m, D being the extent of the control points along a; by at most d if the weights are the same. The same for surfaces. Therefore saving a finite curve or surface as text and loading it, which may change coordinates (C57, C65), moves no point by more than 10^-17 per coordinate if its knots and weights survive 17 decimals (0, multiples of 2^-17, all numbers from 1/16).", "quantifier": "every pair of well-formed curves or surfaces with the same knots, every direction, every parameter; every finite curve or surface of doubles as said", "why_tests_cant": "a bound for all data and parameters at once; tests compare a few loaded points with a tolerance", "anchors": ["src/Curve/Curve.cpp", "src/Surface/Surface.cpp", "src/Utils/Serialization.cpp", "Curve::Evaluate", "Surface::Evaluate", "Curve::SaveToFile", "Curve::LoadFromFile", "Surface::SaveToFile", "Surface::LoadFromFile"]}
{"id": "C106", "title": "What KnotVector::IsUniform decides", "statement": "IsUniform() is true exactly if every non-empty interval between neighbouring knots differs from the first non-empty one by less than 10^-6 (repeated knots are ignored). So all vectors with equal non-empty intervals are found uniform, and no two non-empty intervals of a vector found uniform differ by 2*10^-6 or more. (Unequal intervals are accepted, and the answer depends on which interval comes first.)", "quantifier": "every list of knots, of any length and in any order", "why_tests_cant": "an equivalence over all knot vectors; tests show three vectors", "anchors": ["src/Core/KnotVector.cpp", "include/libnurbs/Core/KnotVector.hpp", "KnotVector::IsUniform"]}
{"id": "C107", "title": "The layout of text files, and which are refused", "statement": "In text files blank lines, white space at the ends of lines, \\r and a missing last newline make no difference to what LoadFromFile does, whatever the file contains, valid or not. Content before the first '*key:' is refused and leaves the object as it was; a key with a name the class does not know is refused wherever it stands; a degree with no value line or with more than one is refused. (False of a key without a name: '*: 3' followed by '*Degree:' gives degree 3. Characters after a number are ignored: '*Degree: 3.7 or more' gives 3.)", "quantifier": "every text file (sequence of lines over all bytes) with a valid first line, for curves and surfaces, and every previous content of the object", "why_tests_cant": "all arrangements of all lines; a test shows one layout", "anchors": ["src/Utils/Serialization.cpp", "Curve::LoadFromFile", "Surface::LoadFromFile", "TrimString"]}
{"id": "C108", "title": "No file makes loading do anything but return or throw", "statement": "Whatever bytes the stream holds, Curve::LoadFromFile returns or throws an exception: no access out of range, no failed assertion, no endless loop. Surface::LoadFromFile does too, unless the file announces numbers of control points whose product is at least 2^31. (False of surfaces: '*ControlPoints: 65536 65536', or the same in a binary file, multiplies two ints beyond the range of int.)", "quantifier": "every stream of bytes, binary or text, every previous content of the object", "why_tests_cant": "robustness against all inputs at once; fuzzing samples them", "anchors": ["src/Utils/Serialization.cpp", "Curve::LoadFromFile", "Surface::LoadFromFile"]}
{"id": "C109", "title": "Knot insertion in double neither overflows nor divides by zero, underflow included", "statement": "In IEEE 754 binary64 with its finite range Curve::InsertKnot of a curve of finite numbers at a value v in (0,1) returns a well-formed curve of finite numbers whose knots are the old ones and v; every point of the curve moves by at most 4*((1-u)^(-13) - 1)*(wh/wl)*B + 2^-872 per coordinate, u = 2^-53, wl and wh the smallest and largest weight, B the largest coordinate; the control points outside the affected window are copied exactly. For the list and the repeated form: at most 4*((1-u)^(-19m) - 1)*(wh/wl)*B after m insertions. The same for Surface::InsertKnotU and InsertKnotV, which leave the other knots alone. (False without limits on the data: with all weights 2^-1074 the weight of a new point underflows to 0 and the code divides by it; homogeneous coordinates can overflow although all points are representable.)", "quantifier": "every well-formed curve or surface of finite doubles of any degree >= 1 (any degree for lists into curves), knots as close as double allows, weights within [2^-100, 2^100], coordinates up to 2^400, every double v in (0,1); lists up to 2^40 values with weights in [2^-99, 2^99] and B in [2^-600, 2^399]", "why_tests_cant": "the limits concern data nobody puts into a test; the bound is for all curves and every intermediate result", "anchors": ["src/Curve/Curve.cpp", "src/Surface/Surface.cpp", "Curve::InsertKnot", "Surface::InsertKnotU", "Surface::InsertKnotV", "KnotVector::InsertKnot", "typedef Numeric = double"]}
{"id": "C110", "title": "Arguments out of range are refused", "statement": "With assertions on, a parameter outside [0,1] ends Evaluate, EvaluateAll and EvaluateDerivative of curves and surfaces, FindSpanIndex, FindSpan and the functions of BSplineBasis in an assertion, and a starting value outside the unit square ends Surface::SearchParameter so; KnotVector::InsertKnot, Curve::InsertKnot and Surface::InsertKnotU/V accept only values strictly between 0 and 1; Curve::RemoveKnot only such values and times >= 1; ElevateDegree only times >= 1. Lists of knots end in the assertion at the first such value. (False of the list and times forms of Curve::InsertKnot, which take 0 and 1: the result has one knot and one point too many and can no longer be evaluated at that end. False of Surface::RemoveKnotU/V, which take 0 and 1: 0 always reads before the first point, 1 may remove the last inner knot and change the surface although the tolerance is zero.)", "quantifier": "every object, well-formed or not, and every arithmetic for the assertions of curves and surfaces; every well-formed curve of degree >= 1 and every well-formed surface for what happens at 0 and 1", "why_tests_cant": "what happens at the forbidden values is shown for all curves and surfaces, not for one", "anchors": ["src/Core/KnotVector.cpp", "include/libnurbs/Core/KnotVector.hpp", "src/Basis/BSplineBasis.cpp", "src/Curve/Curve.cpp", "src/Surface/Surface.cpp", "KnotVector::FindSpanIndex", "KnotVector::InsertKnot", "Curve::Evaluate", "Curve::InsertKnot", "Curve::RemoveKnot", "Curve::ElevateDegree", "Surface::Evaluate", "Surface::InsertKnotU", "Surface::RemoveKnotU", "Surface::RemoveKnotV", "Surface::SearchParameter"]}
{"id": "C111", "title": "Any number of edits, one after the other", "statement": "Whatever knots are inserted (one, a list, several times), however often the degree is elevated and by whatever matrices a curve or surface is transformed, in whatever order and number: it stays well-formed and Evaluate returns at every parameter exactly the transformed point of the curve or surface at the start. With successful and failed knot removals among the edits (matrices then keeping lengths), every point stays within the sum of the tolerances given to the removals (each times the number of knots removed) of the transformed point at the start. After any such history every further call returns normally: evaluation, derivatives, insertions, removals, elevations within their limits (C36). (Not for rational curves once knots are removed: see C87, C88.)", "quantifier": "every finite sequence of such calls, every well-formed curve or surface of degree >= 1 to start with, every parameter in [0,1]; with removals: all curves and surfaces with weights 1", "why_tests_cant": "the number of sequences of calls is unbounded; deviations of single calls could add up or a result of one call be refused by the next", "anchors": ["src/Curve/Curve.cpp", "src/Surface/Surface.cpp", "Curve::InsertKnot", "Curve::RemoveKnot", "Curve::ElevateDegree", "Curve::Transform", "Surface::RemoveKnotU", "Surface::RemoveKnotV", "Surface::InsertKnotU", "Surface::InsertKnotV", "Surface::ElevateDegreeU", "Surface::ElevateDegreeV", "Surface::Transform"]}
{"id": "C112", "title": "The order of the sections of a text file does not matter", "statement": "If the sections of a text file (a '*name:' line and the lines up to the next one) are put in another order, sections of the same name staying in theirs, LoadFromFile accepts the file exactly if it accepted the given one and the object is the same afterwards. Members for which the file has no section stay as they were, even if loading throws. Two sections of knots, or two of control points of a curve, one after the other count as one section with the lines of both.", "quantifier": "every text file of sections over all bytes with a valid first line, valid or not, of curves and surfaces, every rearrangement, every previous content of the object", "why_tests_cant": "all orders of all sections; a test shows the order the library writes", "anchors": ["src/Utils/Serialization.cpp", "Curve::LoadFromFile", "Surface::LoadFromFile"]}
{"id": "C113", "title": "A binary file that loads is the file that saving writes", "statement": "A byte sequence whose first line is a binary header loads as an object exactly when, behind that line, it begins with the bytes SaveToFile(binary) writes for this object behind its own header line; every other one fails to load. Bytes behind the end stay in the stream. So the binary format is one to one: different files never load as the same object (same header line, nothing left over), and the object loaded into and its old contents play no role.", "quantifier": "every byte sequence, every object loaded into, curves and surfaces", "why_tests_cant": "quantifies over all byte sequences; tests only load files that were saved before", "anchors": ["src/Curve/Curve.cpp", "src/Surface/Surface.cpp", "Curve::LoadFromFile", "Curve::SaveToFile", "Surface::LoadFromFile", "Surface::SaveToFile", "ReadKnotVectorFromStream", "ReadVec4FromStream"]}
{"id": "C114", "title": "Only the ratios of the weights count", "statement": "If all weights of a curve or surface are multiplied by the same positive number, every result is the same: points, derivatives, searches and (curves) the bounding box are equal, and knot insertion, degree elevation and (curves) Bezier extraction return the old result with its weights multiplied by that number. Knot removal with tolerance 0 removes the same knots from curves and surfaces and gives the old result with its weights multiplied. (False of knot removal with a positive tolerance, because the tolerance is a length divided by 1 plus a weighted distance from the origin: a factor of the weights can decide whether a knot is removed, and so can the unit of length, even if the tolerance is given in the same unit. The factor a acts as a change of the tolerance: removal with eps from the curve and with eps' = eps (1 + a D) / (1 + D) from the reweighed curve go the same way, D the largest weight times distance from the origin of a control point.)", "quantifier": "every well-formed curve and surface, every positive factor, every parameter; elevation: every object; removal: every curve with weights up to 10^12 before and after", "why_tests_cant": "quantifies over all factors and all objects; one pair of curves is one pair", "anchors": ["src/Curve/Curve.cpp", "src/Surface/Surface.cpp", "Curve::Evaluate", "Curve::EvaluateDerivative", "Curve::InsertKnot", "Curve::ElevateDegree", "Curve::RemoveKnot", "Curve::GetBoundingBox", "Curve::ExtractBezier", "Curve::SearchParameter", "Surface::Evaluate", "Surface::ElevateDegreeU", "Surface::InsertKnotU", "Surface::SearchParameter"]}
{"id": "C115", "title": "Finitely many points decide whether two curves or surfaces are the same", "statement": "Two curves of degrees p and p' for which Evaluate returns the same points at p+p'+1 parameters in every interval between neighbouring knots (of both together; the last interval includes 1) have the same points at every parameter. Two surfaces: a grid of p+p'+1 times q+q'+1 parameters in every rectangle. With the same degrees, knots and weights p+1 parameters per interval (for surfaces a grid of p+1 times q+1 per rectangle) are enough and the curves (surfaces) are equal, control points included. One parameter less is not enough.", "quantifier": "every two well-formed curves (any degrees, knots, weights) and every two well-formed surfaces, every choice of the parameters", "why_tests_cant": "the statement is what makes a test of equality complete; the conclusion is about infinitely many parameters", "anchors": ["src/Curve/Curve.cpp", "src/Surface/Surface.cpp", "Curve::Evaluate", "Surface::Evaluate"]}
{"id": "C116", "title": "Every face of the bounding box touches the curve", "statement": "For a curve with equal weights, whenever GetBoundingBox returns a box, each of the six faces contains a point of the curve: every coordinate of Min and of Max is that coordinate of Evaluate(x) for some x in [0,1]. So the lower faces are exact up to the tolerance: Min is attained and no point of the curve lies below it by more than max(eps, 10^-6). (False of rational curves: the box of a curve with weights 1, 1/3, 1 reaches below all its points. The upper faces may be too low: C40.)", "quantifier": "every well-formed curve of degree >= 1 with equal weights and interior multiplicities up to the degree, every tolerance (also 0 or negative), every number of steps, every implementation of the square root for the faces; for the lower faces a correct square root", "why_tests_cant": "tests compare one box with literals; here the box is tied to points of the curve for all curves and tolerances", "anchors": ["src/Curve/Curve.cpp", "Curve::GetBoundingBox", "Curve::Evaluate", "BoundingBox::ExpandToIncludeBox"]}
{"id": "C117", "title": "What the Bezier pieces of a curve depend on", "statement": "Inserting further copies of interior knots a curve already has (up to multiplicity p) changes neither the result of ExtractBezier nor that of GetBoundingBox. A curve without interior knots is its own only piece, so each piece extracted again gives itself; neighbouring pieces share their control point, weight included. With all weights equal the pieces depend only on the degree, the set of knot values, the weight and the points of the curve: two curves that agree in these have the same pieces, whatever their multiplicities.", "quantifier": "every well-formed curve of degree >= 1 with interior multiplicities up to the degree, every list of inserted knots, every tolerance and square root for the box", "why_tests_cant": "relates the results on different descriptions of the same curve, for all of them", "anchors": ["src/Curve/Curve.cpp", "Curve::ExtractBezier", "Curve::GetBoundingBox", "Curve::InsertKnot", "Curve::Evaluate"]}
{"id": "C118", "title": "Bezier extraction in double neither overflows nor divides by zero, underflow included", "statement": "In IEEE 754 binary64 with its finite range Curve::ExtractBezier of a curve of finite numbers returns one well-formed Bezier curve of finite numbers for each interval [a,b] between neighbouring knots. At t it is within 4*((1-u)^(-19N) - 1)*(wh/wl)*B per coordinate of the given curve at a + t(b-a), u = 2^-53, N the number of added control points, wl and wh the smallest and largest weight, B the largest coordinate; neighbouring pieces have their common control point bit for bit. (False without limits on the data: with all weights 2^-1074 the weight of a joint underflows to 0 and the code divides by it.)", "quantifier": "every well-formed curve of finite doubles of degree >= 1 with interior multiplicities up to the degree, knots as close as double allows, weights within [2^-99, 2^99], coordinates up to 2^399, every t in [0,1]", "why_tests_cant": "the limits concern data nobody puts into a test; the bound is for all curves, all pieces and every parameter", "anchors": ["src/Curve/Curve.cpp", "Curve::ExtractBezier", "Curve::InsertKnot", "KnotVector::GetKnotPairs", "typedef Numeric = double"]}
{"id": "C119", "title": "A smaller tolerance never gives a smaller bounding box", "statement": "If GetBoundingBox(eps1) and GetBoundingBox(eps2) return and eps1 <= eps2, the box for eps1 contains the box for eps2; in particular the box for a tolerance is determined by the curve and does not depend on the number of steps allowed.", "quantifier": "every well-formed curve of degree >= 1 with interior multiplicities up to the degree, any weights, every two tolerances, every implementation of the square root, exact arithmetic", "why_tests_cant": "compares the results for all pairs of tolerances; the two runs halve different pieces", "anchors": ["src/Curve/Curve.cpp", "Curve::GetBoundingBox", "BoundingBox::ExpandToIncludeBox"]}
{"id": "C120", "title": "The bounding box moves with the curve", "statement": "Translating a curve, exchanging its coordinates and multiplying all weights by one positive factor moves the box returned by GetBoundingBox in the same way, or makes it fail in the same way. The same ought to hold for running through the curve backwards (same box) and for mirror images (mirrored box).", "quantifier": "For all curves with interior multiplicities up to the degree, all permutations of the axes, all translations, all positive common factors, all tolerances, all limits of rounds; any function in place of sqrt.", "why_tests_cant": "compares two runs for all curves and motions; that direction and mirroring matter shows only for certain curves with certain tolerances", "anchors": ["src/Curve/Curve.cpp", "Curve::GetBoundingBox", "BoundingBox::ExpandToInclude"]}
{"id": "C121", "title": "GetBoundingBox ends, rounding included", "statement": "With rounding GetBoundingBox ought to return a box for every curve of finite numbers, which contains the ends of all Bezier pieces bit for bit and lies in every axis-parallel slab around their control points. (False: the left half of a piece can, rounded, be the piece itself; then the loop never ends and the stack grows until memory runs out. A line of degree 2 with coordinates near 2^44 is an example, with the default tolerance 1e-3. True as long as p*p*B <= 4*10^9, B the largest coordinate of the control points, if p times the number of knots is at most a million.)", "quantifier": "every well-formed curve of degree >= 1 with interior multiplicities up to the degree, every tolerance (0 and negative ones included), any function in place of sqrt; positive part: binary arithmetic without overflow and underflow, 2*p*p*u*B*(1+u) below the rounded 1e-6", "why_tests_cant": "an endless loop that needs neighbouring numbers as control points; the positive part is about all curves", "anchors": ["src/Curve/Curve.cpp", "Curve::GetBoundingBox", "MathUtils.hpp:Approx(Vec3)", "BoundingBox::ExpandToInclude", "typedef Numeric = double"]}
{"id": "C122", "title": "A surface drawn out from a curve behaves like the curve", "statement": "If every row of control points of a surface is the control polygon of one curve (any number of rows, any degree and knots in the other direction), then for every v Evaluate(u,v) and EvaluateDerivative(u,v,a,0) return what the curve returns at u. If RemoveKnot reports t > 0 removals for the curve, RemoveKnotU reports t and returns the surface drawn out from the new curve; if it reports 0, RemoveKnotU returns the surface unchanged. InsertKnotU returns the surface drawn out from the curve with the knot inserted, InsertKnotV one more row of the same control points. ElevateDegreeU returns the surface drawn out from the elevated curve if ElevateDegree of the curve returns the right number of control points, and otherwise fails an assertion. Removal and elevation: the same with the directions exchanged.", "quantifier": "every well-formed curve, every number of rows, every degree and knot vector in the other direction, every parameter, derivatives up to order 29; removal: every curve, knot, number of times, tolerance and function in place of sqrt", "why_tests_cant": "carries every statement about curves, the refutations included, over to surfaces; a test checks one surface", "anchors": ["src/Curve/Curve.cpp", "src/Surface/Surface.cpp", "Surface::Evaluate", "Surface::EvaluateDerivative", "Surface::RemoveKnotU", "Surface::RemoveKnotV", "Curve::RemoveKnot", "Surface::InsertKnotU", "Surface::InsertKnotV", "Surface::ElevateDegreeU", "Surface::ElevateDegreeV", "Curve::InsertKnot", "Curve::ElevateDegree"]}
{"id": "C123", "title": "A surface of degree 1 with two rows of control points is the ruled surface between its boundary curves", "statement": "If DegreeV is 1 and there are two rows of control points, then for every u Evaluate(u,v) returns (1-t)*C0(u) + t*C1(u) with 0 <= t <= 1, C0 and C1 being what Curve::Evaluate returns for the curves of the two rows, and t = v*W1/((1-v)*W0 + v*W1), W0 and W1 the sums of the weights times the basis functions of the two rows at u. If the weights of the two rows agree, t = v.", "quantifier": "every well-formed surface of degree 1 in v with two rows, every degree and knot vector in u, all positive weights, every u and v in [0,1], exact arithmetic", "why_tests_cant": "a statement about every ruled surface and every parameter; that t differs from v shows only if the weights of the rows differ", "anchors": ["src/Curve/Curve.cpp", "src/Surface/Surface.cpp", "Surface::Evaluate", "Curve::Evaluate"]}
