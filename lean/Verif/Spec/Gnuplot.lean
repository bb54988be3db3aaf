import Verif.Model.Gnuplot

/-!
# How gnuplot reads a file with surfaces, and the surface of a box (C70)
-/

namespace SampleFlow.Spec

variable {D : Type}

/-- A surface: a grid of points, given by its rows. -/
abbrev Surface (D : Type) := List (List (D × D × Nat))

/-- How `splot` reads a file: points are collected into a row; an empty line starts a new row of the same grid; two empty lines start a new surface.  (`done`: finished surfaces, `rows`: finished
rows of the current surface, `row`: the current row.) -/
def readSurfaces (done : List (Surface D)) (rows : Surface D) (row : List (D × D × Nat)) : List (PlotLine D) → List (Surface D)
  | [] => if rows = [] ∧ row = [] then done else done ++ [rows ++ [row]]
  | .point p :: ls => readSurfaces done rows (row ++ [p]) ls
  | .blank :: .blank :: ls => readSurfaces (done ++ [rows ++ [row]]) [] [] ls
  | .blank :: ls => readSurfaces done (rows ++ [row]) [] ls

/-- The surfaces that gnuplot draws for a file. -/
def drawn (file : List (PlotLine D)) : List (Surface D) := readSurfaces [] [] [] file

/-- A corner of the box above the rectangle of a bin: choose the lower or upper end for each direction. -/
def corner (bin : (D × D) × (D × D) × Nat) (x y z : Bool) : D × D × Nat :=
  (if x then bin.2.1.1 else bin.1.1, if y then bin.2.1.2 else bin.1.2, if z then bin.2.2 else 0)

/-- The faces of a box. -/
inductive Face where
  | front | back | left | right | bottom | top

/-- The corners of a face, numbered by the two directions in it. -/
def Face.at (bin : (D × D) × (D × D) × Nat) : Face → Bool → Bool → D × D × Nat
  | .front, u, v => corner bin u false v
  | .back, u, v => corner bin u true v
  | .left, u, v => corner bin false u v
  | .right, u, v => corner bin true u v
  | .bottom, u, v => corner bin u v false
  | .top, u, v => corner bin u v true

/-- The face as a grid of 2 times 2 points. -/
def Face.grid (bin : (D × D) × (D × D) × Nat) (f : Face) : Surface D :=
  [[f.at bin false false, f.at bin true false], [f.at bin false true, f.at bin true true]]

/-- All faces. -/
def Face.all : List Face := [.front, .back, .left, .right, .bottom, .top]

end SampleFlow.Spec
