import Verif.Model.Rounded
import Verif.Model.KMeans

/-!
# Distances and means of k-means in floating point

As `Model/KMeans.lean`, with the rounding `fl` of the format after every operation. `np.linalg.norm` and `np.mean` add in an order that depends on the
memory layout: `Order`. Centroids are numbers (`NaN` centroids: `Model/KMeans.lean`).
-/

namespace CML.Float

variable {K : Type*} [Field K] [LinearOrder K]

/-- The sum of squares in ops.py:241-242 with roundings: `np.linalg.norm` squares the rounded differences and adds. -/
def sqDist {d : Nat} (fl : K → K) (o : Order d) (u v : Fin d → K) : K := o.sum fl fun k => fl (fl (u k - v k) * fl (u k - v k))

/-- ops.py:226-244 `calculate_euclidean_distance`, then ops.py:335-349 `get_cluster`, for one sample: the first centroid of smallest computed distance.
`root` is the rounded square root. -/
def getCluster {d : Nat} (fl root : K → K) (o : Order d) (u : Fin d → K) (centroids : List (Fin d → K)) : Option Nat :=
  argmin? (centroids.map fun c => root (sqDist fl o u c))

/-- ops.py:148 `np.mean(x[clusters == cluster], axis=0)`, one coordinate of a cluster of `n` samples: the sum divided by the number, which is converted to
the format. -/
def centroid {n : Nat} (fl : K → K) (o : Order n) (e : Fin n → K) : K := fl (o.sum fl e / fl n)

end CML.Float
