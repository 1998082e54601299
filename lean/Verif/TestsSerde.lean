import Verif.Model.Serde
import Verif.Tests

/-! # The crate's own serde test vectors

Tests, not proofs, see `Tests`. -/

namespace Nrbf.Tests

variable [Platform] [FloatLib]

/-- `/repo/tests/list_of_customers.rs:6-41` -/
def customers : Bytes := header 1 ++ [4, 1,0,0,0, 127] ++ listClass ++ [3,0,0,0] ++
      6 :: ascii "_items" ++ 5 :: ascii "_size" ++ 8 :: ascii "_version" ++
      [6,0,0, 8,8, 9,2,0,0,0, 2,0,0,0, 2,0,0,0,
       17, 2,0,0,0, 4,0,0,0,
       6, 3,0,0,0] ++ 3 :: ascii "Bob" ++ [6, 4,0,0,0] ++ 3 :: ascii "Rob" ++ [13, 2, 11]

/-- `/repo/tests/list_of_customers.rs:60` -/
example : fromSlice (.tuple [.str, .str]) customers = .ok (.tuple [.str (ascii "Bob"), .str (ascii "Rob")]) := by
  platform_decide

/-- `/repo/tests/list_of_customers.rs:61` -/
example : fromSlice (.vec .str) customers = .ok (.seq [.str (ascii "Bob"), .str (ascii "Rob")]) := by
  platform_decide

/-- `/repo/tests/list_of_customers.rs:63-73` -/
example : fromSlice (.struct [(ascii "_items", .vec (.option .string)), (ascii "_size", .i32), (ascii "_version", .i32)])
    customers = .ok (.struct [(ascii "_items", .seq [.some (.str (ascii "Bob")), .some (.str (ascii "Rob")), .none, .none]),
      (ascii "_size", .int 2), (ascii "_version", .int 2)]) := by
  kernel_decide

/-- `/repo/tests/int32.rs`: the boxed integer -1. -/
def boxed : Bytes := header 1 ++ [4, 1,0,0,0, 12] ++ ascii "System.Int32" ++ [1,0,0,0, 7] ++ ascii "m_value" ++
  [0, 8, 255,255,255,255, 11]

/-- `/repo/tests/int32.rs:69` -/
example : fromSlice .i32 boxed = .ok (.int (-1)) := by kernel_decide

/-- `/repo/tests/int32.rs:76` -/
example : fromSlice (.struct [(ascii "m_value", .i32)]) boxed = .ok (.struct [(ascii "m_value", .int (-1))]) := by
  kernel_decide

/-- `/repo/tests/boolean.rs:38` -/
example : fromSlice .bool Input.boolean = .ok (.bool true) := by kernel_decide

/-- `/repo/tests/byte.rs:40,47` -/
example : fromSlice .i32 Input.byte = .ok (.int 129) := by kernel_decide

/-- `/repo/tests/byte.rs:40,47` -/
example : fromSlice (.struct [(ascii "m_value", .u8)]) Input.byte = .ok (.struct [(ascii "m_value", .int 129)]) := by kernel_decide

/-- `/repo/tests/sbyte.rs:40,47` -/
example : fromSlice .i32 Input.sbyte = .ok (.int (-127)) := by kernel_decide

/-- `/repo/tests/sbyte.rs:40,47` -/
example : fromSlice (.struct [(ascii "m_value", .i8)]) Input.sbyte = .ok (.struct [(ascii "m_value", .int (-127))]) := by kernel_decide

/-- `/repo/tests/double.rs:40,47` -/
example : fromSlice .f64 Input.double = .ok (.f64 0xBFBB50B0F27BB2FF) := by kernel_decide

/-- `/repo/tests/double.rs:40,47` -/
example : fromSlice (.struct [(ascii "m_value", .f64)]) Input.double = .ok (.struct [(ascii "m_value", .f64 0xBFBB50B0F27BB2FF)]) := by kernel_decide

/-- `/repo/tests/single.rs:40` -/
example : fromSlice .f32 Input.single = .ok (.f32 0x4048F5C3) := by kernel_decide

/-- `/repo/tests/int16.rs:41` -/
example : fromSlice .i32 Input.int16 = .ok (.int (-144)) := by kernel_decide

/-- `/repo/tests/int32.rs:69,76` -/
example : fromSlice .i32 Input.int32 = .ok (.int (-1)) := by kernel_decide

/-- `/repo/tests/int32.rs:69,76` -/
example : fromSlice (.struct [(ascii "m_value", .i32)]) Input.int32 = .ok (.struct [(ascii "m_value", .int (-1))]) := by kernel_decide

/-- `/repo/tests/int64.rs:40,47` -/
example : fromSlice .i32 Input.int64 = .ok (.int (-1)) := by kernel_decide

/-- `/repo/tests/int64.rs:40,47` -/
example : fromSlice (.struct [(ascii "m_value", .i64)]) Input.int64 = .ok (.struct [(ascii "m_value", .int (-1))]) := by kernel_decide

/-- `/repo/tests/uint16.rs:43,50` -/
example : fromSlice .i32 Input.uint16 = .ok (.int 65392) := by kernel_decide

/-- `/repo/tests/uint16.rs:43,50` -/
example : fromSlice (.struct [(ascii "m_value", .u16)]) Input.uint16 = .ok (.struct [(ascii "m_value", .int 65392)]) := by kernel_decide

/-- `/repo/tests/uint32.rs:43,50` -/
example : fromSlice .i32 Input.uint32 = .ok (.int 65392) := by kernel_decide

/-- `/repo/tests/uint32.rs:43,50` -/
example : fromSlice (.struct [(ascii "m_value", .u32)]) Input.uint32 = .ok (.struct [(ascii "m_value", .int 65392)]) := by kernel_decide

/-- `/repo/tests/uint64.rs:43,50` -/
example : fromSlice .i32 Input.uint64 = .ok (.int 65392) := by kernel_decide

/-- `/repo/tests/uint64.rs:43,50` -/
example : fromSlice (.struct [(ascii "m_value", .u64)]) Input.uint64 = .ok (.struct [(ascii "m_value", .int 65392)]) := by kernel_decide

/-- `/repo/tests/string.rs:47` -/
example : fromSlice .str Input.string = .ok (.str (ascii "This is a string.")) := by kernel_decide

/-- `/repo/tests/string.rs:48` -/
example : fromSlice .string Input.string = .ok (.str (ascii "This is a string.")) := by kernel_decide

/-- `/repo/tests/array_single_primitive.rs:30` -/
example : fromSlice (.vec .i64) Input.arraySinglePrimitive = .ok (.seq [.int 67, .int 42]) := by kernel_decide

/-- `/repo/tests/array_single_primitive.rs:31` -/
example : fromSlice (.vec .i32) Input.arraySinglePrimitive = .ok (.seq [.int 67, .int 42]) := by kernel_decide

/-- `/repo/tests/array_single_primitive.rs:33-36` -/
example : fromSlice (.tuple [.i64]) Input.arraySinglePrimitive = .err .serde := by kernel_decide

/-- `/repo/tests/array_single_primitive.rs:37` -/
example : fromSlice (.tuple [.i64, .i64]) Input.arraySinglePrimitive = .ok (.tuple [.int 67, .int 42]) := by kernel_decide

/-- `/repo/tests/array_single_primitive.rs:38-41` -/
example : fromSlice (.tuple [.i64, .i64, .i64]) Input.arraySinglePrimitive = .err .serde := by kernel_decide

/-- `/repo/tests/array_single_string.rs:33` -/
example : fromSlice (.tuple [.str, .str]) Input.arraySingleString =
    .ok (.tuple [.str (ascii "Bob"), .str (ascii "Rob")]) := by kernel_decide

/-- `/repo/tests/array_single_string.rs:34` -/
example : fromSlice (.vec .string) Input.arraySingleString =
    .ok (.seq [.str (ascii "Bob"), .str (ascii "Rob")]) := by kernel_decide

/-! Self-describing types. -/

example : fromSlice .any customers = .ok (.seq [.str (ascii "Bob"), .str (ascii "Rob")]) := by platform_decide
example : fromSlice .any boxed = .ok (.int (-1)) := by kernel_decide
example : fromSlice .any Input.arraySinglePrimitive = .ok (.seq [.int 67, .int 42]) := by kernel_decide

end Nrbf.Tests
