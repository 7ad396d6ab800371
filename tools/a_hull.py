PROPS=[
("The convex hull does not depend on the order of the points",
 "Giving the points to ConvexHull in another order changes neither the vertices, nor their order, nor the exception raised, although the sort by x is not stable.",
 "all lists of points, all their permutations and all results of the unstable sort",
 "all permutations and all arrangements an unstable sort may choose",
 ['classicML/backend/python/ops.py::ConvexHull.compute_convex_hull']),
("The convex hull moves with the coordinates",
 "Moving the points, stretching the axes by positive factors and shearing along y does the same to the hull and nothing else.",
 "all lists of points, translations, positive factors and shears",
 "a relation between two computations, for all points and coordinates",
 ['classicML/backend/python/ops.py::ConvexHull.compute_convex_hull','classicML/backend/python/ops.py::ConvexHull._get_slope','classicML/backend/python/ops.py::ConvexHull._get_cross_product']),
("The vertices of the convex hull span the points",
 "Whenever ConvexHull returns, the smallest convex set that contains the vertices is the smallest that contains the points; a point that is not in the convex set spanned by the others is a vertex.",
 "all lists of points (with duplicates) for which the constructor returns",
 "an equality of infinite sets, for all lists of points",
 ['classicML/backend/python/ops.py::ConvexHull.compute_convex_hull']),
]
PLAN={"C249":"The second sort is stable, so its result is sorted lexicographically by slope and x; that order determines points, hence the list.",
"C250":"Slopes change by an increasing map, cross products by a positive factor; both sorts and the scan commute with the map.",
"C251":"Invariant of the scan with Mathlib's convexHull: a removed vertex is in the triangle of the start, its neighbour and the new point."}
STATUS={"C249":("proved","C249_order, including the exceptions."),"C250":("proved","C250_coords, including the exceptions."),"C251":("proved","C251_same_set and C251_corners, with Mathlib's convexHull as specification, duplicates included.")}
VIOL={}
