import Verif.Model.Nom

/-! # The inputs of the crate's own tests

Byte for byte the inputs of `/repo/tests`, translated by a script from the Rust literals. -/

namespace Nrbf.Tests.Input

/-- `/repo/tests/array_single_primitive.rs:5-18` -/
def arraySinglePrimitive : Bytes := [
  0,1,0,0,0,255,255,255,255,1,0,0,0,0,0,0,0,15,1,0,0,0,2,0,
  0,0,9,67,0,0,0,0,0,0,0,42,0,0,0,0,0,0,0,11]

/-- `/repo/tests/array_single_string.rs:5-21` -/
def arraySingleString : Bytes := [
  0,1,0,0,0,255,255,255,255,1,0,0,0,0,0,0,0,17,1,0,0,0,2,0,
  0,0,6,2,0,0,0,3,66,111,98,6,3,0,0,0,3,82,111,98,11]

/-- `/repo/tests/binary_array_jagged.rs:6-47` -/
def binaryArrayJagged : Bytes := [
  0,1,0,0,0,255,255,255,255,1,0,0,0,0,0,0,0,7,1,0,0,0,1,1,
  0,0,0,3,0,0,0,7,8,9,2,0,0,0,9,3,0,0,0,9,4,0,0,0,
  15,2,0,0,0,2,0,0,0,8,1,0,0,0,2,0,0,0,15,3,0,0,0,3,
  0,0,0,8,3,0,0,0,4,0,0,0,5,0,0,0,15,4,0,0,0,4,0,0,
  0,8,6,0,0,0,7,0,0,0,8,0,0,0,9,0,0,0,11]

/-- `/repo/tests/binary_array_jagged_offset.rs:6-45` -/
def binaryArrayJaggedOffset : Bytes := [
  0,1,0,0,0,255,255,255,255,1,0,0,0,0,0,0,0,7,1,0,0,0,4,1,
  0,0,0,3,0,0,0,208,7,0,0,7,8,9,2,0,0,0,9,3,0,0,0,9,
  4,0,0,0,15,2,0,0,0,1,0,0,0,8,1,0,0,0,15,3,0,0,0,2,
  0,0,0,8,2,0,0,0,3,0,0,0,15,4,0,0,0,3,0,0,0,8,4,0,
  0,0,5,0,0,0,6,0,0,0,11]

/-- `/repo/tests/binary_array_rectangular.rs:6-23` -/
def binaryArrayRectangular : Bytes := [
  0,1,0,0,0,255,255,255,255,1,0,0,0,0,0,0,0,7,1,0,0,0,2,2,
  0,0,0,1,0,0,0,2,0,0,0,0,9,67,0,0,0,0,0,0,0,42,0,0,
  0,0,0,0,0,11]

/-- `/repo/tests/binary_array_rectangular_offset.rs:6-63` -/
def binaryArrayRectangularOffset : Bytes := [
  0,1,0,0,0,255,255,255,255,1,0,0,0,0,0,0,0,7,1,0,0,0,5,2,
  0,0,0,10,0,0,0,4,0,0,0,208,7,0,0,1,0,0,0,0,8,0,0,0,
  0,0,0,0,0,0,0,0,0,0,0,0,0,0,0,0,0,0,0,0,0,0,0,0,
  0,0,0,0,0,0,0,0,0,0,0,0,0,0,0,0,0,0,0,0,0,0,0,0,
  0,0,0,0,0,0,0,0,0,0,0,0,0,0,0,0,0,0,0,0,0,0,0,0,
  0,0,0,0,0,0,0,0,0,0,0,0,0,0,0,0,0,0,0,0,0,0,0,0,
  0,0,0,0,0,0,0,0,0,0,0,0,0,0,0,0,0,0,0,0,0,0,0,0,
  0,0,0,0,0,0,0,0,0,0,0,0,0,0,0,0,0,0,0,0,0,0,0,0,
  0,0,0,0,0,0,0,0,0,0,0,0,0,11]

/-- `/repo/tests/binary_array_single_offset.rs:6-31` -/
def binaryArraySingleOffset : Bytes := [
  0,1,0,0,0,255,255,255,255,1,0,0,0,0,0,0,0,7,1,0,0,0,3,1,
  0,0,0,10,0,0,0,208,7,0,0,0,8,0,0,0,0,0,0,0,0,0,0,0,
  0,0,0,0,0,0,0,0,0,0,0,0,0,0,0,0,0,0,0,0,0,0,0,0,
  0,0,0,0,0,11]

/-- `/repo/tests/boolean.rs:7-22` -/
def boolean : Bytes := [
  0,1,0,0,0,255,255,255,255,1,0,0,0,0,0,0,0,4,1,0,0,0,14,83,
  121,115,116,101,109,46,66,111,111,108,101,97,110,1,0,0,0,7,109,95,118,97,108,117,
  101,0,1,1,11]

/-- `/repo/tests/byte.rs:7-22` -/
def byte : Bytes := [
  0,1,0,0,0,255,255,255,255,1,0,0,0,0,0,0,0,4,1,0,0,0,11,83,
  121,115,116,101,109,46,66,121,116,101,1,0,0,0,7,109,95,118,97,108,117,101,0,2,
  129,11]

/-- `/repo/tests/double.rs:7-22` -/
def double : Bytes := [
  0,1,0,0,0,255,255,255,255,1,0,0,0,0,0,0,0,4,1,0,0,0,13,83,
  121,115,116,101,109,46,68,111,117,98,108,101,1,0,0,0,7,109,95,118,97,108,117,101,
  0,6,255,178,123,242,176,80,187,191,11]

/-- `/repo/tests/int16.rs:10-25` -/
def int16 : Bytes := [
  0,1,0,0,0,255,255,255,255,1,0,0,0,0,0,0,0,4,1,0,0,0,12,83,
  121,115,116,101,109,46,73,110,116,49,54,1,0,0,0,7,109,95,118,97,108,117,101,0,
  7,112,255,11]

/-- `/repo/tests/int32.rs:7-22` -/
def int32 : Bytes := [
  0,1,0,0,0,255,255,255,255,1,0,0,0,0,0,0,0,4,1,0,0,0,12,83,
  121,115,116,101,109,46,73,110,116,51,50,1,0,0,0,7,109,95,118,97,108,117,101,0,
  8,255,255,255,255,11]

/-- `/repo/tests/int32.rs:25-40` -/
def int322 : Bytes := [
  0,1,0,0,0,255,255,255,255,1,0,0,0,0,0,0,0,4,1,0,0,0,12,83,
  121,115,116,101,109,46,73,110,116,51,50,1,0,0,0,7,109,95,118,97,108,117,101,0,
  8,12,0,0,0,11]

/-- `/repo/tests/int64.rs:7-22` -/
def int64 : Bytes := [
  0,1,0,0,0,255,255,255,255,1,0,0,0,0,0,0,0,4,1,0,0,0,12,83,
  121,115,116,101,109,46,73,110,116,54,52,1,0,0,0,7,109,95,118,97,108,117,101,0,
  9,255,255,255,255,255,255,255,255,11]

/-- `/repo/tests/list_of_customers.rs:7-38` -/
def listOfCustomers : Bytes := [
  0,1,0,0,0,255,255,255,255,1,0,0,0,0,0,0,0,4,1,0,0,0,127,83,
  121,115,116,101,109,46,67,111,108,108,101,99,116,105,111,110,115,46,71,101,110,101,114,105,
  99,46,76,105,115,116,96,49,91,91,83,121,115,116,101,109,46,83,116,114,105,110,103,44,
  32,109,115,99,111,114,108,105,98,44,32,86,101,114,115,105,111,110,61,52,46,48,46,48,
  46,48,44,32,67,117,108,116,117,114,101,61,110,101,117,116,114,97,108,44,32,80,117,98,
  108,105,99,75,101,121,84,111,107,101,110,61,98,55,55,97,53,99,53,54,49,57,51,52,
  101,48,56,57,93,93,3,0,0,0,6,95,105,116,101,109,115,5,95,115,105,122,101,8,
  95,118,101,114,115,105,111,110,6,0,0,8,8,9,2,0,0,0,2,0,0,0,2,0,
  0,0,17,2,0,0,0,4,0,0,0,6,3,0,0,0,3,66,111,98,6,4,0,0,
  0,3,82,111,98,13,2,11]

/-- `/repo/tests/method_call.rs:8-33` -/
def methodCall : Bytes := [
  0,1,0,0,0,255,255,255,255,1,0,0,0,0,0,0,0,21,20,0,0,0,18,11,
  83,101,110,100,65,100,100,114,101,115,115,18,111,68,79,74,82,101,109,111,116,105,110,103,
  77,101,116,97,100,97,116,97,46,77,121,83,101,114,118,101,114,44,32,68,79,74,82,101,
  109,111,116,105,110,103,77,101,116,97,100,97,116,97,44,32,86,101,114,115,105,111,110,61,
  49,46,48,46,50,54,50,50,46,51,49,51,50,54,44,32,67,117,108,116,117,114,101,61,
  110,101,117,116,114,97,108,44,32,80,117,98,108,105,99,75,101,121,84,111,107,101,110,61,
  110,117,108,108,16,1,0,0,0,1,0,0,0,9,2,0,0,0,12,3,0,0,0,81,
  68,79,74,82,101,109,111,116,105,110,103,77,101,116,97,100,97,116,97,44,32,86,101,114,
  115,105,111,110,61,49,46,48,46,50,54,50,50,46,51,49,51,50,54,44,32,67,117,108,
  116,117,114,101,61,110,101,117,116,114,97,108,44,32,80,117,98,108,105,99,75,101,121,84,
  111,107,101,110,61,110,117,108,108,5,2,0,0,0,27,68,79,74,82,101,109,111,116,105,
  110,103,77,101,116,97,100,97,116,97,46,65,100,100,114,101,115,115,4,0,0,0,6,83,
  116,114,101,101,116,4,67,105,116,121,5,83,116,97,116,101,3,90,105,112,1,1,1,1,
  3,0,0,0,6,4,0,0,0,17,79,110,101,32,77,105,99,114,111,115,111,102,116,32,
  87,97,121,6,5,0,0,0,7,82,101,100,109,111,110,100,6,6,0,0,0,2,87,65,
  6,7,0,0,0,5,57,56,48,53,52,11]

/-- `/repo/tests/method_return.rs:6-10` -/
def methodReturn : Bytes := [
  0,0,0,0,0,0,0,0,0,1,0,0,0,0,0,0,0,22,17,8,0,0,18,16,
  65,100,100,114,101,115,115,32,114,101,99,101,105,118,101,100,11]

/-- `/repo/tests/sbyte.rs:7-22` -/
def sbyte : Bytes := [
  0,1,0,0,0,255,255,255,255,1,0,0,0,0,0,0,0,4,1,0,0,0,12,83,
  121,115,116,101,109,46,83,66,121,116,101,1,0,0,0,7,109,95,118,97,108,117,101,0,
  10,129,11]

/-- `/repo/tests/single.rs:9-24` -/
def single : Bytes := [
  0,1,0,0,0,255,255,255,255,1,0,0,0,0,0,0,0,4,1,0,0,0,13,83,
  121,115,116,101,109,46,83,105,110,103,108,101,1,0,0,0,7,109,95,118,97,108,117,101,
  0,11,195,245,72,64,11]

/-- `/repo/tests/string.rs:7-17` -/
def stringEmpty : Bytes := [
  0,1,0,0,0,255,255,255,255,1,0,0,0,0,0,0,0,6,1,0,0,0,0,11]

/-- `/repo/tests/string.rs:25-35` -/
def string : Bytes := [
  0,1,0,0,0,255,255,255,255,1,0,0,0,0,0,0,0,6,1,0,0,0,17,84,
  104,105,115,32,105,115,32,97,32,115,116,114,105,110,103,46,11]

/-- `/repo/tests/uint16.rs:10-25` -/
def uint16 : Bytes := [
  0,1,0,0,0,255,255,255,255,1,0,0,0,0,0,0,0,4,1,0,0,0,13,83,
  121,115,116,101,109,46,85,73,110,116,49,54,1,0,0,0,7,109,95,118,97,108,117,101,
  0,14,112,255,11]

/-- `/repo/tests/uint32.rs:10-25` -/
def uint32 : Bytes := [
  0,1,0,0,0,255,255,255,255,1,0,0,0,0,0,0,0,4,1,0,0,0,13,83,
  121,115,116,101,109,46,85,73,110,116,51,50,1,0,0,0,7,109,95,118,97,108,117,101,
  0,15,112,255,0,0,11]

/-- `/repo/tests/uint64.rs:10-25` -/
def uint64 : Bytes := [
  0,1,0,0,0,255,255,255,255,1,0,0,0,0,0,0,0,4,1,0,0,0,13,83,
  121,115,116,101,109,46,85,73,110,116,54,52,1,0,0,0,7,109,95,118,97,108,117,101,
  0,16,112,255,0,0,0,0,0,0,11]

end Nrbf.Tests.Input
