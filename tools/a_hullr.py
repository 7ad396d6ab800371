P='classicML/backend/python/ops.py::'
PROPS=[
("The convex hull in floating point",
 "Computed in floating point, the convex hull of a set of distinct points, with a unique leftmost one, is a closed chain of input points without right turns that has all points on or to the left of its edges; for points with small integer coordinates it is the exact hull.",
 "all finite sets of points, all formats, all results of the unstable sort",
 "all sets of points: the sign of a cross product is wrong only for nearly collinear triples",
 [P+'ConvexHull.compute_convex_hull',P+'ConvexHull._get_cross_product',P+'ConvexHull._get_slope']),
]
PLAN={"C285":"Model/HullRounded.lean: the hull with a rounding after each operation. Differences and products of small integers are exact, quotients of different small fractions stay in order because their relative distance exceeds the error; so the sort and all turns are the same as exactly."}
STATUS={"C285":("partial","proved for integer coordinates up to 1448 (single precision) and 33554431 (double precision): same result as exact arithmetic; for every rounding: closed chain of input points, returned for the same sets. False in general (C285_right_turn, C285_outside)")}
VIOL={"C285":"In single precision the hull of (0,0), (1,100), (4096,4097), (4097,4098) contains a right turn, and the hull of (0,0), (1,-100), (4096,4097), (4097,4098) omits the extreme point (4096,4097), which lies outside of the returned polygon (C285_right_turn, C285_outside)."}
