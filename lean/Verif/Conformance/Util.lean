import Verif.Util.Decode
import Verif.Util.Field
import Verif.Util.ReadSpec
import Verif.Conformance.Http1Base

/-!
# The tests of `decode` and of the iterators, run on the model

After /repo/src/util/test and /repo/examples. Nothing here is a proof about the code; the tests of the repository say what its authors
saw the code do, and the model does the same.
-/

namespace Verif.Conformance.Util

open Verif.Util Verif.Conformance.Http1

/-! ## src/util/test/decode.rs -/

/-- `decode_complex`, lines 20-26. -/
example : decode b!"the%20quick+brown%20fox+jumped%20over+the%20lazy+dog%2E" =
    .ok b!"the quick brown fox jumped over the lazy dog." := by decide +kernel

/-- `ending_hex`, lines 28-34. -/
example : decode b!"X%20" = .ok b!"X " := by decide +kernel

/-- `ending_hex_error`, lines 36-55. -/
example : decode b!"X%" = .err (.hexSequence (c! '%')) ∧ decode b!"X%2" = .err (.hexSequence (c! '2')) ∧
    decode b!"X%2G" = .err (.hexSequence (c! 'G')) := by decide +kernel

/-- `ending_plus`, lines 57-63. -/
example : decode b!"X+" = .ok b!"X " := by decide +kernel

/-- `middle_hex`, lines 65-71. -/
example : decode b!"X%20X" = .ok b!"X X" := by decide +kernel

/-- `middle_hex_error`, lines 73-80. -/
example : decode b!"X%2GX" = .err (.hexSequence (c! 'G')) := by decide +kernel

/-- `middle_plus`, lines 82-88. -/
example : decode b!"X+X" = .ok b!"X X" := by decide +kernel

/-- `no_decoding`, lines 90-96. -/
example : decode b!"string" = .ok b!"string" := by decide +kernel

/-- `non_visible_7bit_error`, lines 98-107. -/
example : ∀ b ∈ vec_non_visible_7bit, decode [b] = .err (.byte b) := by decide +kernel

/-- `starting_hex`, lines 109-117. -/
example : decode b!"%21" = .ok b!"!" := by decide +kernel

/-- `starting_hex_error1`, `starting_hex_error2`, `starting_hex_error3`, lines 119-144. -/
example : decode b!"%" = .err (.hexSequence (c! '%')) ∧ decode b!"%2" = .err (.hexSequence (c! '2')) ∧
    decode b!"%2G" = .err (.hexSequence (c! 'G')) := by decide +kernel

/-- `starting_plus`, lines 146-152. -/
example : decode b!"+" = .ok b!" " := by decide +kernel

/-- `visible_7bit`, lines 154-164, whose filters leave no byte. -/
example : ∀ b ∈ ((vec_visible_7bit).filter (· == c! '%')).filter (· == c! '+'), decode [b] = .ok [b] := by
  decide +kernel

/-! ## src/util/test/query_iterator.rs -/

/-- The first `n` calls of `next`. -/
def query (n : Nat) (x : Bytes) : List (Said QueryError) := said QueryIter.next QueryIter.errs n (QueryIter.new x)

/-- `hex`, lines 19-58. The test asks nothing if there are no items, and there are none (C05). -/
example : query 1 b!"field%201=value%201&field%202=value%202&field%203" = [.returns none [.name (c! '0')]] := by
  decide +kernel

/-- `hex_name_error`, lines 60-79. -/
example : query 1 b!"field%2Q" = [.returns none [.name (c! 'Q')]] := by decide +kernel

/-- `hex_value_error`, lines 80-100. -/
example : query 1 b!"field=value%2Q" = [.returns none [.value (c! 'Q')]] := by decide +kernel

/-- `no_hex`, lines 102-141. -/
example : query 4 b!"field1=value1&field2=value2&field3" =
    [.returns (some (b!"field1", some b!"value1")) [], .returns (some (b!"field2", some b!"value2")) [],
      .returns (some (b!"field3", none)) [], .returns none []] := by decide +kernel

/-! ## src/util/test/field_iterator.rs -/

/-- The first `n` calls of `next`. -/
def field (n : Nat) (x : Bytes) (d : UInt8) (z : Bool) : List (Said FieldError) :=
  said FieldIter.next FieldIter.errs n (FieldIter.new x d z)

/-- `name_invalid_byte_error`, lines 19-33. -/
example : field 1 b!"compr\ression=bzip" (c! ';') false = [.returns none [.name (c! '\r')]] := by decide +kernel

/-- `value_ending_quote_missing_error`, lines 35-49. -/
example : field 1 b!"compression=\"bzip" (c! ';') false = [.returns none [.value (c! 'p')]] := by decide +kernel

/-- `value_invalid_byte_error`, lines 51-65. -/
example : field 1 b!"compression=bz\rip" (c! ';') false = [.returns none [.value (c! '\r')]] := by decide +kernel

/-- `value_invalid_quote_error`, lines 67-81. -/
example : field 1 b!"compression=bzip\"" (c! ';') false = [.returns none [.value (c! '"')]] := by decide +kernel

/-- `normalize`, lines 83-112. -/
example : field 3 b!"COMPRESSION=bzip; BOUNDARY=longrandomboundarystring" (c! ';') true =
    [.returns (some (b!"compression", some b!"bzip")) [],
      .returns (some (b!"boundary", some b!"longrandomboundarystring")) [], .returns none []] := by decide +kernel

/-- `no_normalize`, lines 114-143. -/
example : field 3 b!"Compression=Bzip; Boundary=Longrandomboundarystring" (c! ';') false =
    [.returns (some (b!"Compression", some b!"Bzip")) [],
      .returns (some (b!"Boundary", some b!"Longrandomboundarystring")) [], .returns none []] := by decide +kernel

/-- `no_value`, lines 145-184. -/
example : field 4 b!"compression=bzip; field2; field3" (c! ';') false =
    [.returns (some (b!"compression", some b!"bzip")) [], .returns (some (b!"field2", none)) [],
      .returns (some (b!"field3", none)) [], .returns none []] := by decide +kernel

/-- `quoted`, lines 186-215. -/
example : field 3 b!"compression=bzip; content-type=\"application\\\"/\\\"json\"" (c! ';') false =
    [.returns (some (b!"compression", some b!"bzip")) [],
      .returns (some (b!"content-type", some b!"application\"/\"json")) [], .returns none []] := by decide +kernel

/-- `value_error`, lines 217-236. -/
example : field 1 b!"compression=bzip\r" (c! ';') false = [.returns none [.value (c! '\r')]] := by decide +kernel

/-! ## The examples of the documentation -/

/-- examples/http_decoding_url_encoded_data.md and src/util/decode.rs line 90. -/
example : decode b!"The%20quick%20brown%20fox%20jumped%20over%20the%20lazy%20dog." =
      .ok b!"The quick brown fox jumped over the lazy dog." ∧
    decode b!"fancy%20url%20encoded%20data" = .ok b!"fancy url encoded data" := by decide +kernel

/-- examples/http_parsing_query_strings.md, the second one (the first is `no_hex` above, and src/util/query.rs line 80). -/
example : query 4 b!"field1=value1&field2=value2&field3\x00" =
    [.returns (some (b!"field1", some b!"value1")) [], .returns (some (b!"field2", some b!"value2")) [],
      .returns none [.name 0], .returns none []] := by decide +kernel

/-- examples/http_parsing_header_fields.md. -/
example : field 3 b!"form/multipart; boundary=\"randomlongboundary\"" (c! ';') true =
      [.returns (some (b!"form/multipart", none)) [], .returns (some (b!"boundary", some b!"randomlongboundary")) [],
        .returns none []] ∧
    field 3 b!"form/multipart; boundary=\"randomlongboundary" (c! ';') true =
      [.returns (some (b!"form/multipart", none)) [], .returns none [.value (c! 'y')], .returns none []] := by
  constructor <;> decide +kernel

/-- src/util/field.rs line 84. -/
example : field 3 b!"COMPRESSION=bzip; BOUNDARY=\"longrandomboundarystring\"" (c! ';') true =
    [.returns (some (b!"compression", some b!"bzip")) [],
      .returns (some (b!"boundary", some b!"longrandomboundarystring")) [], .returns none []] := by decide +kernel

end Verif.Conformance.Util
