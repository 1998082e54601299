import Verif.Model.ValueEq
import Verif.TestVectors
import Verif.Tactic.PlatformDecide

/-! # The crate's own test vectors

Tests, not proofs: each `example` runs the model on a message of `/repo/tests` and compares with the
result the Rust test expects.  They tie the model to the code, nothing more. -/

namespace Nrbf.Tests

variable [Platform]

/-- The bytes of an ASCII string literal. -/
def ascii (s : String) : Bytes := s.toList.map fun c => UInt8.ofNat c.toNat

/-- `0, root, -1, 1, 0`. -/
def header (root : UInt8) : Bytes := [0, root,0,0,0, 0xFF,0xFF,0xFF,0xFF, 1,0,0,0, 0,0,0,0]

def listClass : Bytes :=
  ascii "System.Collections.Generic.List`1[[System.String, mscorlib, Version=4.0.0.0, Culture=neutral, PublicKeyToken=b77a5c561934e089]]"

/-- `/repo/tests/list_of_customers.rs:6-41` -/
example : deserialize (header 1 ++ [4, 1,0,0,0, 127] ++ listClass ++ [3,0,0,0] ++
      6 :: ascii "_items" ++ 5 :: ascii "_size" ++ 8 :: ascii "_version" ++
      [6,0,0, 8,8, 9,2,0,0,0, 2,0,0,0, 2,0,0,0,
       17, 2,0,0,0, 4,0,0,0,
       6, 3,0,0,0] ++ 3 :: ascii "Bob" ++ [6, 4,0,0,0] ++ 3 :: ascii "Rob" ++ [13, 2, 11]) =
    .ok (.value (.object listClass none
      [(ascii "_items", .array [.string (ascii "Bob"), .string (ascii "Rob"), .null, .null]),
       (ascii "_size", .int32 2), (ascii "_version", .int32 2)])) := by kernel_decide

/-- `/repo/tests/array_single_string.rs:4-21` -/
example : deserialize (header 1 ++ [17, 1,0,0,0, 2,0,0,0, 6, 2,0,0,0, 3] ++ ascii "Bob" ++
      [6, 3,0,0,0, 3] ++ ascii "Rob" ++ [11]) =
    .ok (.value (.array [.string (ascii "Bob"), .string (ascii "Rob")])) := by kernel_decide

/-- `/repo/tests/binary_array_rectangular.rs` -/
example : deserialize (header 1 ++ [7, 1,0,0,0, 2, 2,0,0,0, 1,0,0,0, 2,0,0,0, 0, 9,
      67,0,0,0,0,0,0,0, 42,0,0,0,0,0,0,0, 11]) =
    .ok (.value (.array [.array [.int64 67, .int64 42]])) := by platform_decide

/-- `/repo/tests/method_return.rs` -/
example : deserialize ([0, 0,0,0,0, 0,0,0,0, 1,0,0,0, 0,0,0,0, 0x16, 0x11,8,0,0, 0x12, 0x10] ++
      ascii "Address received" ++ [11]) =
    .ok (.methodReturn ⟨some (.string (ascii "Address received")), none, none⟩) := by kernel_decide

/-- `/repo/tests/boolean.rs:25-33` -/
example : deserialize Input.boolean =
    .ok (.value (.object (ascii "System.Boolean") none [(ascii "m_value", .boolean true)])) := by kernel_decide

/-- `/repo/tests/byte.rs:25-33` -/
example : deserialize Input.byte =
    .ok (.value (.object (ascii "System.Byte") none [(ascii "m_value", .byte 129)])) := by kernel_decide

/-- `/repo/tests/sbyte.rs:25-33` -/
example : deserialize Input.sbyte =
    .ok (.value (.object (ascii "System.SByte") none [(ascii "m_value", .sbyte (-127))])) := by kernel_decide

/-- `/repo/tests/double.rs:25-33` -/
example : deserialize Input.double =
    .ok (.value (.object (ascii "System.Double") none [(ascii "m_value", .double 0xBFBB50B0F27BB2FF)])) := by kernel_decide

/-- `/repo/tests/single.rs:27-35` -/
example : deserialize Input.single =
    .ok (.value (.object (ascii "System.Single") none [(ascii "m_value", .single 0x4048F5C3)])) := by kernel_decide

/-- `/repo/tests/int16.rs:28-36` -/
example : deserialize Input.int16 =
    .ok (.value (.object (ascii "System.Int16") none [(ascii "m_value", .int16 (-144))])) := by kernel_decide

/-- `/repo/tests/int32.rs:42-50` -/
example : deserialize Input.int32 =
    .ok (.value (.object (ascii "System.Int32") none [(ascii "m_value", .int32 (-1))])) := by kernel_decide

/-- `/repo/tests/int32.rs:53-61` -/
example : deserialize Input.int322 =
    .ok (.value (.object (ascii "System.Int32") none [(ascii "m_value", .int32 12)])) := by kernel_decide

/-- `/repo/tests/int64.rs:25-33` -/
example : deserialize Input.int64 =
    .ok (.value (.object (ascii "System.Int64") none [(ascii "m_value", .int64 (-1))])) := by kernel_decide

/-- `/repo/tests/uint16.rs:28-36` -/
example : deserialize Input.uint16 =
    .ok (.value (.object (ascii "System.UInt16") none [(ascii "m_value", .uint16 65392)])) := by kernel_decide

/-- `/repo/tests/uint32.rs:28-36` -/
example : deserialize Input.uint32 =
    .ok (.value (.object (ascii "System.UInt32") none [(ascii "m_value", .uint32 65392)])) := by kernel_decide

/-- `/repo/tests/uint64.rs:28-36` -/
example : deserialize Input.uint64 =
    .ok (.value (.object (ascii "System.UInt64") none [(ascii "m_value", .uint64 65392)])) := by kernel_decide

/-- `/repo/tests/string.rs:4-22` -/
example : deserialize Input.stringEmpty = .ok (.value (.string [])) := by kernel_decide

/-- `/repo/tests/string.rs:37-41` -/
example : deserialize Input.string = .ok (.value (.string (ascii "This is a string."))) := by kernel_decide

/-- `/repo/tests/array_single_primitive.rs:21-25` -/
example : deserialize Input.arraySinglePrimitive = .ok (.value (.array [.int64 67, .int64 42])) := by kernel_decide

/-- `/repo/tests/binary_array_jagged.rs` -/
example : deserialize Input.binaryArrayJagged = .ok (.value (.array [
    .array [.int32 1, .int32 2], .array [.int32 3, .int32 4, .int32 5], .array [.int32 6, .int32 7, .int32 8, .int32 9]])) := by platform_decide

/-- `/repo/tests/binary_array_jagged_offset.rs` -/
example : deserialize Input.binaryArrayJaggedOffset = .ok (.value (.array [
    .array [.int32 1], .array [.int32 2, .int32 3], .array [.int32 4, .int32 5, .int32 6]])) := by platform_decide

/-- `/repo/tests/binary_array_rectangular_offset.rs` -/
example : deserialize Input.binaryArrayRectangularOffset =
    .ok (.value (.array (List.replicate 10 (.array (List.replicate 4 (.int32 0)))))) := by platform_decide

/-- `/repo/tests/binary_array_single_offset.rs` -/
example : deserialize Input.binaryArraySingleOffset = .ok (.value (.array (List.replicate 10 (.int32 0)))) := by platform_decide

/-- `/repo/tests/method_call.rs` -/
example : deserialize Input.methodCall = .ok (.methodCall
    { methodName := ascii "SendAddress"
      typeName := ascii "DOJRemotingMetadata.MyServer, DOJRemotingMetadata, Version=1.0.2622.31326, Culture=neutral, PublicKeyToken=null"
      callContext := none
      args := some [.object (ascii "DOJRemotingMetadata.Address")
        (some (ascii "DOJRemotingMetadata, Version=1.0.2622.31326, Culture=neutral, PublicKeyToken=null"))
        [(ascii "Street", .string (ascii "One Microsoft Way")), (ascii "City", .string (ascii "Redmond")),
         (ascii "State", .string (ascii "WA")), (ascii "Zip", .string (ascii "98054"))]] }) := by kernel_decide

end Nrbf.Tests
