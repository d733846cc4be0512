import Verif.Spec.Hull
/-!
# Specification vocabulary: pieces told apart by the middles of their faces and edges
-/
namespace PyQC

/-- Faces of the object with close centroids have the same corners, and edges with the same midpoint have the same ends. -/
structure ToldByMiddles (o : Obj 4) : Prop where
  faces : ∀ i j, Close (Package.ico.centroidPerp (face o i)) (Package.ico.centroidPerp (face o j)) →
    Set.range (Package.ico.perps (face o i)) = Set.range (Package.ico.perps (face o j))
  edges : ∀ s ∈ o, ∀ t ∈ o, ∀ i j k l : Fin 4, i ≠ j → k ≠ l →
    Package.ico.centroidPerp (edge s i j) = Package.ico.centroidPerp (edge t k l) →
    Set.range (Package.ico.perps (edge s i j)) = Set.range (Package.ico.perps (edge t k l))

/-- Two objects for which `intersection_convex` is meant: each is well formed and told apart by its middles, the region of each
is convex, and no corner and no edge of one falls into the tolerances of the tests against a tetrahedron of the other. -/
structure ConvexPair (o1 o2 : Obj 4) : Prop where
  wf1 : WellFormed o1
  wf2 : WellFormed o2
  mid1 : ToldByMiddles o1
  mid2 : ToldByMiddles o2
  conv1 : Convex ℝ (Package.ico.region o1)
  conv2 : Convex ℝ (Package.ico.region o2)
  clear12 : ∀ s ∈ o1, ∀ t ∈ o2, Clear (Package.ico.perps s) (Package.ico.perps t)
  clear21 : ∀ s ∈ o1, ∀ t ∈ o2, Clear (Package.ico.perps t) (Package.ico.perps s)

end PyQC
