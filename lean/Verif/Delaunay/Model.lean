import Verif.Delaunay.Arena
import Verif.Predicates.Model

/-!
# Delaunay triangulation: topology

Model of the connectivity part of `/repo/src/voronoi/delaunay`.  Points are their indices; the geometric
decisions (which tetra contains a point, whether a circumcircle contains a point, how a line crosses a face)
are parameters here and are supplied by the geometric modules.  `none` is a panic.
-/

namespace Verif.Delaunay

open Verif.Predicates (IntersectionType Edge)

/-- `ConnectionData`, delaunay/face_info.rs lines 5-9. -/
structure Conn where
  tetra : ℕ
  point : ℕ
  deriving DecidableEq

/-- `FaceInfo`, delaunay/face_info.rs lines 11-17. -/
structure FaceInfo where
  face : ℕ
  opposing : Option Conn
  flipped : Bool
  deriving DecidableEq

/-- `TriangleWithFaces` (primitives/triangle.rs lines 80-88) and `Tetrahedron` (primitives/tetrahedron.rs
lines 31-41): the points `p1, p2, ...` together with the faces `f1, f2, ...` opposite to them.  Both are
represented by a list of such pairs, of length three in two and four in three dimensions. -/
structure Tetra where
  slots : List (ℕ × FaceInfo)
  deriving DecidableEq

/-- `DTetra::points`, triangle.rs lines 97-99, tetrahedron.rs lines 58-60. -/
def Tetra.points (t : Tetra) : List ℕ := t.slots.map Prod.fst

/-- `DTetra::faces`, triangle.rs lines 101-103, tetrahedron.rs lines 62-64. -/
def Tetra.faces (t : Tetra) : List FaceInfo := t.slots.map Prod.snd

/-- `DTetra::find_face`, delaunay/dimension.rs lines 44-46. -/
def Tetra.findFace (t : Tetra) (f : ℕ) : Option FaceInfo := t.faces.find? (fun fi => fi.face == f)

/-- `DTetra::find_face_opposite`, delaunay/dimension.rs lines 52-60. -/
def Tetra.findFaceOpposite (t : Tetra) (p : ℕ) : Option FaceInfo :=
  (t.slots.find? (fun s => s.1 == p)).map Prod.snd

/-- `DTetra::find_point_opposite`, delaunay/dimension.rs lines 62-70. -/
def Tetra.findPointOpposite (t : Tetra) (f : ℕ) : Option ℕ :=
  (t.slots.find? (fun s => s.2.face == f)).map Prod.fst

/-- The first slot with face `f` gets the opposing data `c`. -/
def setFirst (f : ℕ) (c : Conn) : List (ℕ × FaceInfo) → Option (List (ℕ × FaceInfo))
  | [] => none
  | s :: l =>
    if s.2.face = f then some ((s.1, { s.2 with opposing := some c }) :: l)
    else (setFirst f c l).map (fun l' => s :: l')

/-- `tetra.find_face_mut(f).opposing = Some(c)`, delaunay/dimension.rs lines 48-50. -/
def Tetra.setOpposing (t : Tetra) (f : ℕ) (c : Conn) : Option Tetra :=
  (setFirst f c t.slots).map (fun l => ⟨l⟩)

/-- The arenas of `Triangulation`, delaunay/mod.rs lines 99-107: tetras, faces (each the list of its points)
and the number of points. -/
structure Mesh where
  tetras : Arena Tetra
  faces : Arena (List ℕ)
  numPoints : ℕ

/-- `self.tetras[t].find_face_mut(f).opposing = Some(c)`, e.g. `set_opposing_in_new_tetra`, delaunay/mod.rs
lines 242-250. -/
def Mesh.setOpposing (m : Mesh) (t f : ℕ) (c : Conn) : Option Mesh :=
  match m.tetras.get t with
  | none => none
  | some T =>
    match T.setOpposing f c with
    | none => none
    | some T' => (m.tetras.set t T').map (fun ts => { m with tetras := ts })

/-- `update_connections_in_existing_tetra`, delaunay/mod.rs lines 252-269, for the new tetra `k`. -/
def linkBack (k : ℕ) : List (ℕ × FaceInfo) → Mesh → Option Mesh
  | [], m => some m
  | s :: l, m =>
    match s.2.opposing with
    | none => linkBack k l m
    | some c => (m.setOpposing c.tetra s.2.face ⟨k, s.1⟩).bind (linkBack k l)

/-- `insert_tetra`, delaunay/mod.rs lines 232-240 (without the debug assertion). -/
def Mesh.insertTetra (m : Mesh) (t : Tetra) : Option Mesh :=
  linkBack m.tetras.next t.slots { m with tetras := (m.tetras.insert t).1 }

/-- Consecutive calls of `insert_tetra`.  The new indices are `m.tetras.next, m.tetras.next + 1, ...`. -/
def Mesh.insertTetras : List Tetra → Mesh → Option Mesh
  | [], m => some m
  | t :: ts, m => (m.insertTetra t).bind (insertTetras ts)

/-- Consecutive calls of `set_opposing_in_new_tetra`, delaunay/mod.rs lines 242-250. -/
def Mesh.connect : List (ℕ × ℕ × Conn) → Mesh → Option Mesh
  | [], m => some m
  | l :: ls, m => (m.setOpposing l.1 l.2.1 l.2.2).bind (connect ls)

/-- Consecutive calls of `self.faces.insert`.  The new indices are `m.faces.next, m.faces.next + 1, ...`. -/
def Mesh.insertFaces : List (List ℕ) → Mesh → Mesh
  | [], m => m
  | f :: fs, m => insertFaces fs { m with faces := (m.faces.insert f).1 }

/-- `self.tetras.remove(t).unwrap()`. -/
def Mesh.removeTetra (m : Mesh) (t : ℕ) : Option (Tetra × Mesh) :=
  (m.tetras.remove t).map fun r => (r.1, { m with tetras := r.2 })

/-- `self.faces.remove(f).unwrap()`. -/
def Mesh.removeFace (m : Mesh) (f : ℕ) : Option (List ℕ × Mesh) :=
  (m.faces.remove f).map fun r => (r.1, { m with faces := r.2 })

/-- `self.faces.remove(f);`, the result is ignored. -/
def Mesh.dropFace (m : Mesh) (f : ℕ) : Mesh :=
  match m.faces.remove f with
  | none => m
  | some r => { m with faces := r.2 }

/-- A new face whose opposing data is not known yet. -/
def newFace (f : ℕ) (flipped : Bool) : FaceInfo := ⟨f, none, flipped⟩

/-! ### Two dimensions -/

/-- `Delaunay<TwoD>::split`, delaunay/impl_2d.rs lines 77-128 (with `insert_split_tetra`, lines 41-73).  The
result also contains the indices of the new tetras. -/
def Mesh.split2d (m : Mesh) (t point : ℕ) : Option (Mesh × List ℕ) :=
  match m.removeTetra t with
  | none => none
  | some (old, m0) =>
    match old.slots with
    | [(p1, o1), (p2, o2), (p3, o3)] =>
      let f1 := m0.faces.next
      let f2 := f1 + 1
      let f3 := f1 + 2
      let m1 := m0.insertFaces [[point, p1], [point, p2], [point, p3]]
      let t1 := m1.tetras.next
      let t2 := t1 + 1
      let t3 := t1 + 2
      ((m1.insertTetras [
        ⟨[(p2, newFace f3 true), (p3, newFace f2 false), (point, o1)]⟩,
        ⟨[(p3, newFace f1 true), (p1, newFace f3 false), (point, o2)]⟩,
        ⟨[(p1, newFace f2 true), (p2, newFace f1 false), (point, o3)]⟩]).bind
      (Mesh.connect [
        (t1, f3, ⟨t2, p1⟩), (t1, f2, ⟨t3, p1⟩),
        (t2, f3, ⟨t1, p2⟩), (t2, f1, ⟨t3, p2⟩),
        (t3, f1, ⟨t2, p3⟩), (t3, f2, ⟨t1, p3⟩)])).map (fun m => (m, [t1, t2, t3]))
    | _ => none

/-- `Delaunay<TwoD>::flip`, delaunay/impl_2d.rs lines 130-191. -/
def Mesh.flip2d (m : Mesh) (t f : ℕ) : Option (Mesh × List ℕ) := do
  let (old, m) ← m.removeTetra t
  let (oldFace, m) ← m.removeFace f
  let face ← old.findFace f
  let opposing ← face.opposing
  let (oppOld, m) ← m.removeTetra opposing.tetra
  let q := opposing.point
  let p ← old.findPointOpposite f
  match oldFace with
  | [a, b] =>
    let p1 := if face.flipped then b else a
    let p2 := if face.flipped then a else b
    let n := m.faces.next
    let m := m.insertFaces [[p, q]]
    let f1a ← oppOld.findFaceOpposite p2
    let f1b ← old.findFaceOpposite p2
    let f2a ← oppOld.findFaceOpposite p1
    let f2b ← old.findFaceOpposite p1
    let t1 := m.tetras.next
    let t2 := t1 + 1
    let m ← m.insertTetras [
      ⟨[(p, f1a), (p1, newFace n true), (q, f1b)]⟩,
      ⟨[(p2, newFace n false), (p, f2a), (q, f2b)]⟩]
    let m ← m.connect [(t1, n, ⟨t2, p2⟩), (t2, n, ⟨t1, p1⟩)]
    some (m, [t1, t2])
  | _ => none

/-- `Delaunay<TwoD>::insert_basic_tetra`, delaunay/impl_2d.rs lines 193-223, applied to the empty
triangulation. -/
def Mesh.basic2d : Option Mesh :=
  let m : Mesh := ⟨.empty, .empty, 3⟩
  (m.insertFaces [[1, 2], [2, 0], [0, 1]]).insertTetra
    ⟨[(0, newFace 0 false), (1, newFace 1 false), (2, newFace 2 false)]⟩

/-! ### Three dimensions -/

/-- `Delaunay<ThreeD>::split`, delaunay/impl_3d.rs lines 241-342 (with `insert_split_tetra`, lines 45-85). -/
def Mesh.split3d (m : Mesh) (t point : ℕ) : Option (Mesh × List ℕ) :=
  match m.removeTetra t with
  | none => none
  | some (old, m0) =>
    match old.slots with
    | [(p1, o1), (p2, o2), (p3, o3), (p4, o4)] =>
      let f12 := m0.faces.next
      let f13 := f12 + 1
      let f14 := f12 + 2
      let f23 := f12 + 3
      let f24 := f12 + 4
      let f34 := f12 + 5
      let m1 := m0.insertFaces [[point, p1, p2], [point, p1, p3], [point, p1, p4], [point, p2, p3],
        [point, p2, p4], [point, p3, p4]]
      let t1 := m1.tetras.next
      let t2 := t1 + 1
      let t3 := t1 + 2
      let t4 := t1 + 3
      ((m1.insertTetras [
        ⟨[(p3, newFace f24 true), (p2, newFace f34 false), (p4, newFace f23 false), (point, o1)]⟩,
        ⟨[(p1, newFace f34 true), (p3, newFace f14 false), (p4, newFace f13 true), (point, o2)]⟩,
        ⟨[(p2, newFace f14 true), (p1, newFace f24 false), (p4, newFace f12 false), (point, o3)]⟩,
        ⟨[(p1, newFace f23 true), (p2, newFace f13 false), (p3, newFace f12 true), (point, o4)]⟩]).bind
      (Mesh.connect [
        (t1, f34, ⟨t2, p1⟩), (t1, f24, ⟨t3, p1⟩), (t1, f23, ⟨t4, p1⟩),
        (t2, f34, ⟨t1, p2⟩), (t2, f14, ⟨t3, p2⟩), (t2, f13, ⟨t4, p2⟩),
        (t3, f24, ⟨t1, p3⟩), (t3, f14, ⟨t2, p3⟩), (t3, f12, ⟨t4, p3⟩),
        (t4, f23, ⟨t1, p4⟩), (t4, f13, ⟨t2, p4⟩), (t4, f12, ⟨t3, p4⟩)])).map
          (fun m => (m, [t1, t2, t3, t4]))
    | _ => none

/-- The closure `make_tetra` of `two_to_three_flip`, delaunay/impl_3d.rs lines 114-141 (without the
insertion). -/
def makeTetra23 (ta tb : Tetra) (p1 p2 : ℕ) (flipped : Bool) (pa pb fa fb other : ℕ) : Option Tetra := do
  let g1 ← ta.findFaceOpposite other
  let g2 ← tb.findFaceOpposite other
  let q1 := if !flipped then p2 else p1
  let q2 := if !flipped then p1 else p2
  let h1 := if !flipped then g2 else g1
  let h2 := if !flipped then g1 else g2
  some ⟨[(q1, h2), (q2, h1), (pa, newFace fb flipped), (pb, newFace fa !flipped)]⟩

/-- `two_to_three_flip`, delaunay/impl_3d.rs lines 87-171. -/
def Mesh.twoToThree (m : Mesh) (a b p1 p2 f : ℕ) : Option (Mesh × List ℕ) := do
  let (ta, m) ← m.removeTetra a
  let (tb, m) ← m.removeTetra b
  let fi ← ta.findFace f
  let (shared, m) ← m.removeFace f
  match shared with
  | [s1, s2, s3] =>
    let f1 := m.faces.next
    let f2 := f1 + 1
    let f3 := f1 + 2
    let m := m.insertFaces [[p1, p2, s1], [p1, p2, s2], [p1, p2, s3]]
    let n1 ← makeTetra23 ta tb p1 p2 fi.flipped s2 s3 f2 f3 s1
    let n2 ← makeTetra23 ta tb p1 p2 fi.flipped s3 s1 f3 f1 s2
    let n3 ← makeTetra23 ta tb p1 p2 fi.flipped s1 s2 f1 f2 s3
    let t1 := m.tetras.next
    let t2 := t1 + 1
    let t3 := t1 + 2
    let m ← m.insertTetras [n1, n2, n3]
    let m ← m.connect [
      (t1, f2, ⟨t3, s1⟩), (t1, f3, ⟨t2, s1⟩),
      (t2, f3, ⟨t1, s2⟩), (t2, f1, ⟨t3, s2⟩),
      (t3, f1, ⟨t2, s3⟩), (t3, f2, ⟨t1, s3⟩)]
    some (m, [t1, t2, t3])
  | _ => none

/-- The closure `make_new_tetra` of `three_to_two_flip`, delaunay/impl_3d.rs lines 204-226 (without the
insertion). -/
def makeTetra32 (t1 t2 t3 : Tetra) (p1 p2 p3 : ℕ) (n contained opposite : ℕ) (flip : Bool) :
    Option Tetra := do
  let g1 ← t1.findFaceOpposite opposite
  let g2 ← t2.findFaceOpposite opposite
  let g3 ← t3.findFaceOpposite opposite
  let q1 := if flip then p2 else p1
  let q2 := if flip then p1 else p2
  let h1 := if flip then g2 else g1
  let h2 := if flip then g1 else g2
  some ⟨[(q1, h1), (q2, h2), (p3, g3), (contained, newFace n flip)]⟩

/-- `three_to_two_flip`, delaunay/impl_3d.rs lines 173-237 (without the debug assertions); `e1`, `e2` are the
end points of the shared edge. -/
def Mesh.threeToTwo (m : Mesh) (i1 i2 i3 p1 p2 p3 e1 e2 : ℕ) : Option (Mesh × List ℕ) := do
  let (t1, m) ← m.removeTetra i1
  let (t2, m) ← m.removeTetra i2
  let (t3, m) ← m.removeTetra i3
  let f1 ← t3.findFaceOpposite p2
  let f2 ← t1.findFaceOpposite p3
  let f3 ← t2.findFaceOpposite p1
  let m := ((m.dropFace f1.face).dropFace f2.face).dropFace f3.face
  let n := m.faces.next
  let m := m.insertFaces [[p1, p2, p3]]
  let na ← makeTetra32 t1 t2 t3 p1 p2 p3 n e1 e2 !f3.flipped
  let nb ← makeTetra32 t1 t2 t3 p1 p2 p3 n e2 e1 f3.flipped
  let ta := m.tetras.next
  let tb := ta + 1
  let m ← m.insertTetras [na, nb]
  let m ← m.connect [(ta, n, ⟨tb, e2⟩), (tb, n, ⟨ta, e1⟩)]
  some (m, [ta, tb])

/-- `Triangle::get_point_opposite`, primitives/triangle.rs lines 62-68. -/
def pointOppositeEdge (s1 s2 s3 : ℕ) : Edge → ℕ
  | .one => s1
  | .two => s2
  | .three => s3

/-- `Triangle::get_points_of`, primitives/triangle.rs lines 70-76. -/
def pointsOfEdge (s1 s2 s3 : ℕ) : Edge → ℕ × ℕ
  | .one => (s2, s3)
  | .two => (s3, s1)
  | .three => (s1, s2)

/-- `Delaunay<ThreeD>::flip`, delaunay/impl_3d.rs lines 344-400.  `intersect f p1 p2` is the intersection type
of the face with points `f` and the line through `p1` and `p2`. -/
def Mesh.flip3d (intersect : List ℕ → ℕ → ℕ → Option IntersectionType) (m : Mesh) (t f : ℕ) :
    Option (Mesh × List ℕ) := do
  let t1 ← m.tetras.get t
  let shared ← m.faces.get f
  let fi ← t1.findFace f
  let opposing ← fi.opposing
  let t2 ← m.tetras.get opposing.tetra
  let p1 ← t1.findPointOpposite f
  let p2 ← t2.findPointOpposite f
  let ty ← intersect shared p1 p2
  match ty with
  | .inside => m.twoToThree t opposing.tetra p1 p2 f
  | .outsideOneEdge e =>
    match shared with
    | [s1, s2, s3] => do
      let o := pointOppositeEdge s1 s2 s3 e
      let es := pointsOfEdge s1 s2 s3 e
      let g1 ← t1.findFaceOpposite o
      let c1 ← g1.opposing
      let g2 ← t2.findFaceOpposite o
      let c2 ← g2.opposing
      if c2.tetra = c1.tetra then m.threeToTwo t opposing.tetra c1.tetra p2 p1 o es.1 es.2
      else some (m, [])
    | _ => none
  | .outsideTwoEdges _ _ => some (m, [])

/-- `Delaunay<ThreeD>::insert_basic_tetra`, delaunay/impl_3d.rs lines 402-414, with `insert_tetra_and_faces`,
lines 417-470, applied to the empty triangulation. -/
def Mesh.basic3d : Option Mesh :=
  let m : Mesh := ⟨.empty, .empty, 4⟩
  (m.insertFaces [[2, 1, 3], [2, 3, 0], [0, 3, 1], [0, 1, 2]]).insertTetra
    ⟨[(0, newFace 0 false), (1, newFace 1 false), (2, newFace 2 false), (3, newFace 3 false)]⟩

end Verif.Delaunay
