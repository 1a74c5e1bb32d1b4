import Verif.Geometry.Model

/-!
# Values encoded for MPI

Model of `/repo/src/voronoi/constructor/parallel/mpi_types.rs`, `/repo/src/communication/communicated_option.rs`,
`/repo/src/communication/identified.rs` and `/repo/src/quadtree/node_index.rs`.  MPI transports the fields of a
struct unchanged (derived `Equivalence`, and the hand-written ones with the offsets of all fields); floating
point numbers are elements of a type `F`, because they are only copied.
-/

namespace Verif.Encoding

open Verif.Geometry (WrapType)

/-- `From<WrapType> for isize`, mpi_types.rs lines 167-176. -/
def wrapToInt : WrapType → ℤ
  | .noWrap => 0
  | .minus => -1
  | .plus => 1

/-- `From<isize> for WrapType`, mpi_types.rs lines 178-187; `none` is the panic. -/
def wrapFromInt (v : ℤ) : Option WrapType :=
  if v = -1 then some .minus
  else if v = 0 then some .noWrap
  else if v = 1 then some .plus
  else none

/-- `SearchData<TwoD>`, halo_iteration.rs lines 50-54. -/
structure SearchData2 (F : Type) where
  x : F
  y : F
  radius : F

/-- `SearchDataTwoDSend`, mpi_types.rs lines 22-27. -/
structure SearchData2Send (F : Type) where
  pointX : F
  pointY : F
  radius : F

/-- `to_equivalent` for `SearchData<TwoD>`, mpi_types.rs lines 32-38. -/
def SearchData2.encode {F : Type} (d : SearchData2 F) : SearchData2Send F := ⟨d.x, d.y, d.radius⟩

/-- `from_equivalent` for `SearchData<TwoD>`, mpi_types.rs lines 40-45. -/
def SearchData2.decode {F : Type} (d : SearchData2Send F) : SearchData2 F := ⟨d.pointX, d.pointY, d.radius⟩

/-- `SearchData<ThreeD>`, halo_iteration.rs lines 50-54. -/
structure SearchData3 (F : Type) where
  x : F
  y : F
  z : F
  radius : F

/-- `SearchDataThreeDSend`, mpi_types.rs lines 48-54. -/
structure SearchData3Send (F : Type) where
  pointX : F
  pointY : F
  pointZ : F
  radius : F

/-- `to_equivalent` for `SearchData<ThreeD>`, mpi_types.rs lines 59-66. -/
def SearchData3.encode {F : Type} (d : SearchData3 F) : SearchData3Send F := ⟨d.x, d.y, d.z, d.radius⟩

/-- `from_equivalent` for `SearchData<ThreeD>`, mpi_types.rs lines 68-73. -/
def SearchData3.decode {F : Type} (d : SearchData3Send F) : SearchData3 F :=
  ⟨d.pointX, d.pointY, d.pointZ, d.radius⟩

/-- `SearchResult<TwoD>`, halo_iteration.rs lines 91-96, with the wrap type of simulation_box.rs. -/
structure SearchResult2 (F Id : Type) where
  x : F
  y : F
  id : Id
  wrapX : WrapType
  wrapY : WrapType

/-- `SearchResultTwoDSend`, mpi_types.rs lines 76-82. -/
structure SearchResult2Send (F Id : Type) where
  pointX : F
  pointY : F
  id : Id
  wrap : ℤ × ℤ

/-- `to_equivalent` for `SearchResult<TwoD>`, mpi_types.rs lines 87-94 and 136-140. -/
def SearchResult2.encode {F Id : Type} (d : SearchResult2 F Id) : SearchResult2Send F Id :=
  ⟨d.x, d.y, d.id, (wrapToInt d.wrapX, wrapToInt d.wrapY)⟩

/-- `from_equivalent` for `SearchResult<TwoD>`, mpi_types.rs lines 96-102 and 142-149. -/
def SearchResult2.decode {F Id : Type} (d : SearchResult2Send F Id) : Option (SearchResult2 F Id) := do
  let wx ← wrapFromInt d.wrap.1
  let wy ← wrapFromInt d.wrap.2
  return ⟨d.pointX, d.pointY, d.id, wx, wy⟩

/-- `SearchResult<ThreeD>`, halo_iteration.rs lines 91-96. -/
structure SearchResult3 (F Id : Type) where
  x : F
  y : F
  z : F
  id : Id
  wrapX : WrapType
  wrapY : WrapType
  wrapZ : WrapType

/-- `SearchResultThreeDSend`, mpi_types.rs lines 105-112. -/
structure SearchResult3Send (F Id : Type) where
  pointX : F
  pointY : F
  pointZ : F
  id : Id
  wrap : ℤ × ℤ × ℤ

/-- `to_equivalent` for `SearchResult<ThreeD>`, mpi_types.rs lines 117-125 and 151-155. -/
def SearchResult3.encode {F Id : Type} (d : SearchResult3 F Id) : SearchResult3Send F Id :=
  ⟨d.x, d.y, d.z, d.id, (wrapToInt d.wrapX, wrapToInt d.wrapY, wrapToInt d.wrapZ)⟩

/-- `from_equivalent` for `SearchResult<ThreeD>`, mpi_types.rs lines 127-133 and 157-165. -/
def SearchResult3.decode {F Id : Type} (d : SearchResult3Send F Id) : Option (SearchResult3 F Id) := do
  let wx ← wrapFromInt d.wrap.1
  let wy ← wrapFromInt d.wrap.2.1
  let wz ← wrapFromInt d.wrap.2.2
  return ⟨d.pointX, d.pointY, d.pointZ, d.id, wx, wy, wz⟩

/-- `CommunicatedOption`, communicated_option.rs lines 8-12.  Uninitialised memory is some value. -/
structure CommunicatedOption (T : Type) where
  valid : Bool
  data : T

/-- `From<Option<T>>`, communicated_option.rs lines 32-45; `uninit` is what happens to be in the memory. -/
def CommunicatedOption.ofOption {T : Type} (uninit : T) : Option T → CommunicatedOption T
  | some d => ⟨true, d⟩
  | none => ⟨false, uninit⟩

/-- `From<CommunicatedOption<T>> for Option<T>`, communicated_option.rs lines 47-55. -/
def CommunicatedOption.toOption {T : Type} (o : CommunicatedOption T) : Option T :=
  if o.valid then some o.data else none

/-- An entity of `bevy_ecs`: generation and index, both `u32`. -/
structure Entity where
  generation : Fin (2 ^ 32)
  index : Fin (2 ^ 32)

/-- `Entity::to_bits` of `bevy_ecs` (external, `generation << 32 | index`). -/
def Entity.toBits (e : Entity) : ℕ := e.generation * 2 ^ 32 + e.index

/-- `Entity::from_bits` of `bevy_ecs` (external; truncation to the upper and lower 32 bits). -/
def Entity.fromBits (k : ℕ) : Entity :=
  ⟨⟨k / 2 ^ 32 % 2 ^ 32, Nat.mod_lt _ (by decide)⟩, ⟨k % 2 ^ 32, Nat.mod_lt _ (by decide)⟩⟩

/-- `Identified`, identified.rs lines 3-7. -/
structure Identified (T : Type) where
  key : ℕ
  data : T

/-- `Identified::new`, identified.rs lines 10-15. -/
def Identified.new {T : Type} (e : Entity) (data : T) : Identified T := ⟨e.toBits, data⟩

/-- `Identified::entity`, identified.rs lines 17-19. -/
def Identified.entity {T : Type} (i : Identified T) : Entity := Entity.fromBits i.key

/-- `NodeIndex`, node_index.rs lines 4-8. -/
inductive NodeIndex where
  | thisNode
  | child (n : ℕ)
  deriving DecidableEq

/-- `From<NodeIndex> for u8`, node_index.rs lines 29-36; `TWO_TO_NUM_DIMENSIONS` is `2 ^ d`. -/
def NodeIndex.encode (d : ℕ) : NodeIndex → ℕ
  | .thisNode => 2 ^ d
  | .child n => n

/-- `From<u8> for NodeIndex`, node_index.rs lines 19-27. -/
def NodeIndex.decode (d : ℕ) (v : ℕ) : NodeIndex := if v = 2 ^ d then .thisNode else .child v

end Verif.Encoding
