import Verif.Model.CStrBuf
/-!
# Specification of the runtime's string buffer: what each call appends
-/
namespace SPVM.Spec.CStrBuf
open SPVM.VM (Bytes)
open SPVM.CStrBuf (Op)

/-- The bytes a call appends. -/
def piece : Op → Bytes
  | .add mem => mem.takeWhile (· ≠ 0)
  | .addLen mem n => mem.take n
  | .addLenNullstr mem n => mem.take n ++ [0]
  | .addHexChar ch => ascii "\\x" ++ hex2 ch
  | .addByte v => decimal v
  | .addShort v => decimal v
  | .addInt v => if v = -2147483648 then ascii "INT32_MIN" else decimal v
  | .addLong v => if v = -9223372036854775808 then ascii "INT64_MIN" else decimal v ++ ascii "LL"

/-- The contract of a call: the memory holds a C string, or the given number of bytes; the number fits its type. -/
def Valid : Op → Prop
  | .add mem => 0 ∈ mem
  | .addLen mem n => n ≤ mem.length
  | .addLenNullstr mem n => n ≤ mem.length
  | .addHexChar _ => True
  | .addByte v => -128 ≤ v ∧ v ≤ 127
  | .addShort v => -32768 ≤ v ∧ v ≤ 32767
  | .addInt v => -2147483648 ≤ v ∧ v ≤ 2147483647
  | .addLong v => -9223372036854775808 ≤ v ∧ v ≤ 9223372036854775807

end SPVM.Spec.CStrBuf
