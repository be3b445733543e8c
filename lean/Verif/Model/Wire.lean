import Verif.Model.RosSub

/-!
# Model of the contact messages on the wire

`ROS/drift/include/custom_sensor_msgs/Contact.h`, `ContactArray.h` (generated from `ROS/drift/msg/*.msg`).  The serialisers of
these headers list the fields in order (`allInOne`); what a field looks like on the wire is the ROS library's
(`ros/serialization.h`, not in the repository): integers little endian, strings and arrays preceded by their length in four
bytes, and a message preceded by its own length in four bytes.  A stream that is read or written beyond its end throws
(`StreamOverrunException`): `none`.
-/
namespace Drift
namespace Wire

/-- a byte -/
abbrev Byte := BitVec 8
/-- what is left of a stream -/
abbrev Bytes := List Byte

/-- `custom_sensor_msgs/Contact`, Contact.h:21-52, msg/Contact.msg: `int32 id`, `bool indicator` (a `uint8_t`) -/
structure Contact where
  id : BitVec 32
  indicator : Byte
  deriving DecidableEq

/-- `std_msgs/Header`, quoted in ContactArray.h:163-186 -/
structure Header where
  seq : BitVec 32
  sec : BitVec 32
  nsec : BitVec 32
  frame : Bytes
  deriving DecidableEq

/-- `custom_sensor_msgs/ContactArray`, ContactArray.h:24-54 -/
structure ContactArray where
  header : Header
  contacts : List Contact
  deriving DecidableEq

/-! ### writing -/

/-- `Serializer<uint32_t>` and `Serializer<int32_t>` (ROS): four bytes, little endian -/
def putU32 (x : BitVec 32) : Bytes :=
  [x.extractLsb' 0 8, x.extractLsb' 8 8, x.extractLsb' 16 8, x.extractLsb' 24 8]

/-- `Serializer<std::string>` (ROS): `(uint32_t) size`, then the characters -/
def putString (s : Bytes) : Bytes := putU32 (BitVec.ofNat 32 s.length) ++ s

/-- Contact.h:174-178 `allInOne`: id, indicator -/
def putContact (c : Contact) : Bytes := putU32 c.id ++ [c.indicator]

/-- `Serializer<std_msgs::Header>` (ROS) -/
def putHeader (h : Header) : Bytes := putU32 h.seq ++ (putU32 h.sec ++ (putU32 h.nsec ++ putString h.frame))

/-- `VectorSerializer` (ROS): `(uint32_t) size`, then the elements -/
def putContacts (l : List Contact) : Bytes := putU32 (BitVec.ofNat 32 l.length) ++ l.flatMap putContact

/-- ContactArray.h:197-201 `allInOne`: header, contacts -/
def putArray (m : ContactArray) : Bytes := putHeader m.header ++ putContacts m.contacts

/-- `ros::serialization::serializeMessage`: the buffer has room for `serializationLength + 4` bytes, computed in 32 bits; it
holds the length of the message and the message -/
def serialize (m : ContactArray) : Option Bytes :=
  if (putArray m).length + 4 < 2 ^ 32 then some (putU32 (BitVec.ofNat 32 (putArray m).length) ++ putArray m) else none

/-! ### reading -/

/-- one `stream.next` of an integer of one byte -/
def getU8 : Bytes → Option (Byte × Bytes)
  | a :: r => some (a, r)
  | [] => none

/-- one `stream.next` of an integer of four bytes -/
def getU32 : Bytes → Option (BitVec 32 × Bytes)
  | a :: b :: c :: d :: r => some (d ++ c ++ b ++ a, r)
  | _ => none

/-- `IStream::advance`: takes `n` bytes -/
def getN (n : ℕ) (s : Bytes) : Option (Bytes × Bytes) := if n ≤ s.length then some (s.take n, s.drop n) else none

/-- `Serializer<std::string>` (ROS) -/
def getString (s : Bytes) : Option (Bytes × Bytes) := (getU32 s).bind fun r => getN r.1.toNat r.2

/-- Contact.h:174-178 `allInOne`: id, indicator -/
def getContact (s : Bytes) : Option (Contact × Bytes) :=
  (getU32 s).bind fun i => (getU8 i.2).bind fun b => some (⟨i.1, b.1⟩, b.2)

/-- `Serializer<std_msgs::Header>` (ROS) -/
def getHeader (s : Bytes) : Option (Header × Bytes) :=
  (getU32 s).bind fun a => (getU32 a.2).bind fun b => (getU32 b.2).bind fun c => (getString c.2).bind fun f =>
    some (⟨a.1, b.1, c.1, f.1⟩, f.2)

/-- `VectorSerializer` (ROS): the loop over the elements -/
def getMany : ℕ → Bytes → Option (List Contact × Bytes)
  | 0, s => some ([], s)
  | n + 1, s => (getContact s).bind fun c => (getMany n c.2).bind fun l => some (c.1 :: l.1, l.2)

/-- `VectorSerializer` (ROS): the length, then the elements (running out of memory in `resize` is not modelled) -/
def getContacts (s : Bytes) : Option (List Contact × Bytes) := (getU32 s).bind fun n => getMany n.1.toNat n.2

/-- ContactArray.h:197-201 `allInOne`: header, contacts -/
def getArray (s : Bytes) : Option (ContactArray × Bytes) :=
  (getHeader s).bind fun h => (getContacts h.2).bind fun c => some (⟨h.1, c.1⟩, c.2)

/-- a message received by a connection (ROS): the length is read, then that many bytes, from which the message is read -/
def receive (s : Bytes) : Option (ContactArray × Bytes) :=
  (getU32 s).bind fun n => (getN n.1.toNat n.2).bind fun b => (getArray b.1).bind fun m => some (m.1, b.2)

/-! ### what the subscriber makes of it -/

/-- ros_subscriber.cpp:553-563: the stamp, and the indicators by their position in the array, converted to `bool`; the `id`s
are not looked at -/
def toMsg (m : ContactArray) : ContactMsg :=
  ⟨⟨m.header.sec.toNat, m.header.nsec.toNat⟩, m.contacts.map fun c => decide (c.indicator ≠ 0)⟩

end Wire
end Drift
