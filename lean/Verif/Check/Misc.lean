import Verif.Model.MiscParse
import Verif.Model.MiscData
import Verif.Model.Version
import Verif.Model.Null

/-!
# The unit tests of the project, run by the model: `/repo/test/test_misc/test_misc.c`

These are tests of the model and not properties of the code, see `Verif.Check.Strv`.
`memcmp(NULL, NULL, 0)` is accepted (mode `.wrap`): that's what some of the tests do, and it's undefined in the strict reading.
-/

namespace Verif.Check.Misc
open Verif.C Verif.Misc Verif.Parse

/-- `g_assert` -/
def check (b : Bool) : M Unit := if b then .ok () else .error .assertFail

/-- The characters of a string literal -/
def s (x : String) : List Byte := x.toList.map fun c => BitVec.ofNat 8 c.toNat

/-- ... terminated by zero -/
def cs (x : String) : Ptr := some (s x ++ [0])

/-- `test_version`, lines 46-52 -/
example : Version.runTime = Version.compileTime := by decide +kernel

/-- `test_disconnect`, lines 67-94; the ids are 5 and 6. -/
example : (do
    check ((← disconnectHandlers false (some [7, 7]) 2) = (some [7, 7], []))
    check ((← disconnectHandlers true none 0) = (none, []))
    check ((← disconnectHandlers true (some [5, 6]) 2) = (some [0, 0], [5, 6]))
    check ((← disconnectHandlers true (some [0, 0]) 2) = (some [0, 0], []))) = .ok () := by decide +kernel

/-- `test_ref`, lines 100-111, and `test_unref`, lines 117-124 -/
example : (do
    check ((← Objv.objectRef [1] none) = ([1], none))
    check ((← Objv.objectRef [1] (some 0)) = ([2], some 0))
    check ((← Objv.objectUnref [1] none) = [1])
    check ((← Objv.objectUnref [1] (some 0)) = [0])) = .ok () := by decide +kernel

/-- `test_source`, lines 139-154 -/
example : sourceClear none = (none, false, []) ∧ sourceClear (some 0) = (some 0, false, []) ∧ sourceClear (some 9) = (some 0, true, [9]) ∧
    sourceRemove 0 = (false, []) ∧ sourceRemove 9 = (true, [9]) := by decide

/-- The returned pointer isn't `NULL`. -/
def hexOk (str : Ptr) (len : Int) (data : Ptr) : M Bool := do
  let (_, ok) ← hex2bin true str len data
  .ok ok

/-- `test_hex2bin`, lines 160-200 -/
example : (do
    let buf : Ptr := some [0, 0, 0, 0]
    check (!(← hexOk none 0 none))
    check (!(← hexOk (cs "x") 0 none))
    check (!(← hexOk (cs "x") 0 buf))
    check (!(← hexOk (cs "x") (-1) buf))
    check (!(← hexOk (cs "x") 1 buf))
    check (!(← hexOk (cs "xy") 2 buf))
    check (!(← hexOk (cs " 1") 2 buf))
    check (!(← hexOk (cs "1 ") 2 buf))
    check (!(← hexOk (cs "1234FG") 6 buf))
    check ((← hex2bin true (cs "01234567") 8 buf) = (some [0x01, 0x23, 0x45, 0x67], true))
    check ((← hex2bin true (cs "89abcdef") 8 buf) = (some [0x89, 0xab, 0xcd, 0xef], true))
    check ((← hex2bin true (cs "89ABCDEF") 8 buf) = (some [0x89, 0xab, 0xcd, 0xef], true))
    check ((← hex2bytes true none 0) = none)
    check ((← hex2bytes true (cs "x") 0) = none)
    check ((← hex2bytes true (cs "x") 1) = none)
    check ((← hex2bytes true (cs "x") (-1)) = none)
    check ((← hex2bytes true (cs "xy") (-1)) = none)
    check ((← hex2bytes true (cs "01234567") (-1)) = some [0x01, 0x23, 0x45, 0x67])) = .ok () := by decide +kernel

/-- `test_bin2hex`, lines 206-240 -/
example : (do
    check ((← data2hex none false) = none)
    check (some (← bin2hex [] false) = cs "")
    check (some (← bin2hex [0x89, 0xab, 0xcd, 0xef] false) = cs "89abcdef")
    check ((← data2hex (some [0x89, 0xab, 0xcd, 0xef]) false) = cs "89abcdef")
    check (some (← bin2hex [0x89, 0xab, 0xcd, 0xef] true) = cs "89ABCDEF")
    check ((← data2hex (some [0x89, 0xab, 0xcd, 0xef]) true) = cs "89ABCDEF")) = .ok () := by decide +kernel

/-- `isprint` in the C locale -/
def isprint (c : Byte) : Bool := 0x20 ≤ c.toNat && c.toNat ≤ 0x7e

/-- `test_hexdump`, lines 246-272 -/
example : (do
    let data : List Byte := [0x30, 0x31, 0x32, 0x33, 0x34, 0x35, 0x36, 0x37, 0x38, 0x39, 0x3a, 0x3b, 0x3c, 0x3d, 0x3e, 0x3f, 0x00]
    let (buf, n) ← hexdump .strict true isprint bufSize data 17
    check (n = maxBytes)
    check ((← strlen buf) = bufSize - 1)
    check (some buf = cs "30 31 32 33 34 35 36 37  38 39 3a 3b 3c 3d 3e 3f    01234567 89:;<=>?")
    let (buf, n) ← hexdump .strict true isprint bufSize (data.drop maxBytes) 1
    check (n = 1)
    check ((← strlen buf) = 53)
    check (some buf = cs ("00                       " ++ "                           " ++ "."))) = .ok () := by decide +kernel

/-- `test_parse_int`, lines 278-308 -/
example : (do
    check (parseInt none 0 = none)
    check (parseInt (s "") 0 = none)
    check (parseInt (s "garbage") 0 = none)
    check (parseInt (s "0 trailing garbage") 0 = none)
    check (parseInt (s "0") (-1) = none)
    check (parseInt (s "0") 1 = none)
    check (parseInt (s "0") 0 = some 0)
    check (parseInt (s "-1") 0 = some (-1))
    check (parseInt (s "42") 0 = some 42)
    check (parseInt (s "0x10000000000000000") 0 = none)
    check (parseInt (s "-2147483649") 0 = none)
    check (parseInt (s "4294967295") 0 = none)
    check (parseInt (s " 0x7fffffff ") 0 = some 0x7fffffff)
    check (parseInt (s " 7fffffff ") 16 = some 0x7fffffff)
    check (parseInt (s "7ffffffe ") 16 = some 0x7ffffffe)
    check (parseInt (s "0xffffffff") 0 = none)) = .ok () := by decide +kernel

/-- `test_parse_uint`, lines 314-349 -/
example : (do
    check (parseUInt none 0 = none)
    check (parseUInt (s "") 0 = none)
    check (parseUInt (s "garbage") 0 = none)
    check (parseUInt (s "0 trailing garbage") 0 = none)
    check (parseUInt (s "0") (-1) = none)
    check (parseUInt (s "0") 1 = none)
    check (parseUInt (s "0") 0 = some 0)
    check (parseUInt (s "42") 0 = some 42)
    check (parseUInt (s "0x10000000000000000") 0 = none)
    check (parseUInt (s "0x100000000") 0 = none)
    check (parseUInt (s "-2147483649") 0 = none)
    check (parseUInt (s "-1") 0 = none)
    check (parseUInt (s " -1 ") 0 = none)
    check (parseUInt (s "4294967295") 0 = some 4294967295)
    check (parseUInt (s " 0x7fffffff ") 0 = some 0x7fffffff)
    check (parseUInt (s " 7fffffff ") 16 = some 0x7fffffff)
    check (parseUInt (s "7ffffffe ") 16 = some 0x7ffffffe)
    check (parseUInt (s "0xffffffff") 0 = some 0xffffffff)) = .ok () := by decide +kernel

/-- `test_parse_int64`, lines 355-396 -/
example : (do
    check (parseInt64 none 0 = none)
    check (parseInt64 (s "") 0 = none)
    check (parseInt64 (s "garbage") 0 = none)
    check (parseInt64 (s "0 trailing garbage") 0 = none)
    check (parseInt64 (s "0") (-1) = none)
    check (parseInt64 (s "0") 1 = none)
    check (parseInt64 (s "0") 0 = some 0)
    check (parseInt64 (s "-1") 0 = some (-1))
    check (parseInt64 (s "42") 0 = some 42)
    check (parseInt64 (s "-2147483649") 0 = some (-2147483649))
    check (parseInt64 (s "4294967295") 0 = some 4294967295)
    check (parseInt64 (s " 0x7fffffff ") 0 = some 0x7fffffff)
    check (parseInt64 (s " 7fffffff ") 16 = some 0x7fffffff)
    check (parseInt64 (s "7ffffffe ") 16 = some 0x7ffffffe)
    check (parseInt64 (s "0xffffffff") 0 = some 0xffffffff)
    check (parseInt64 (s "-9223372036854775808") 0 = some (-0x8000000000000000))
    check (parseInt64 (s "9223372036854775807") 0 = some 0x7fffffffffffffff)
    check (parseInt64 (s "0x10000000000000000") 0 = none)
    check (parseInt64 (s "-9223372036854775809") 0 = none)
    check (parseInt64 (s "9223372036854775808") 0 = none)) = .ok () := by decide +kernel

/-- `test_parse_uint64`, lines 402-438 -/
example : (do
    check (parseUInt64 none 0 = none)
    check (parseUInt64 (s "") 0 = none)
    check (parseUInt64 (s "garbage") 0 = none)
    check (parseUInt64 (s "0 trailing garbage") 0 = none)
    check (parseUInt64 (s "0") (-1) = none)
    check (parseUInt64 (s "0") 1 = none)
    check (parseUInt64 (s "0") 0 = some 0)
    check (parseUInt64 (s "42") 0 = some 42)
    check (parseUInt64 (s "-2147483649") 0 = none)
    check (parseUInt64 (s "-1") 0 = none)
    check (parseUInt64 (s " -1 ") 0 = none)
    check (parseUInt64 (s "4294967295") 0 = some 4294967295)
    check (parseUInt64 (s " 0x7fffffff ffffffff ") 0 = none)
    check (parseUInt64 (s " 0x7fffffffffffffff ") 0 = some 0x7fffffffffffffff)
    check (parseUInt64 (s " 7fffffff ffffffff") 16 = none)
    check (parseUInt64 (s " 7fffffffffffffff ") 16 = some 0x7fffffffffffffff)
    check (parseUInt64 (s "0x100000000") 0 = some 0x100000000)
    check (parseUInt64 (s "0xffffffffffffffff") 0 = some 0xffffffffffffffff)
    check (parseUInt64 (s "0x10000000000000000") 0 = none)) = .ok () := by decide +kernel

def d (x : String) : Data := ⟨some (s x), x.length⟩
def empty : Data := ⟨none, 0⟩

/-- `test_data_equal`, lines 444-467; the number is the address of the structure. -/
example : (do
    check (← dataEqual .wrap none none)
    check (← dataEqual .wrap (some (1, d "123")) (some (1, d "123")))
    check (← dataEqual .wrap (some (1, d "123")) (some (2, d "123")))
    check (!(← dataEqual .wrap (some (1, d "123")) (some (3, d "1234"))))
    check (!(← dataEqual .wrap (some (1, d "123")) (some (4, d "321"))))
    check (!(← dataEqual .wrap (some (1, d "123")) none))
    check (!(← dataEqual .wrap none (some (1, d "123"))))) = .ok () := by decide +kernel

/-- `test_data_prefix`, lines 473-497 -/
example : (do
    check (← dataHasPrefix .wrap none none)
    check (!(← dataHasPrefix .wrap (some empty) none))
    check (!(← dataHasPrefix .wrap none (some empty)))
    check (← dataHasPrefix .wrap (some empty) (some empty))
    check (← dataHasPrefix .wrap (some (d "123")) (some empty))
    check (← dataHasPrefix .wrap (some (d "1234")) (some (d "123")))
    check (!(← dataHasPrefix .wrap (some (d "123")) (some (d "1234"))))
    check (!(← dataHasPrefix .wrap (some (d "1234")) (some (d "234"))))) = .ok () := by decide +kernel

/-- `test_data_suffix`, lines 503-527 -/
example : (do
    check (← dataHasSuffix .wrap none none)
    check (!(← dataHasSuffix .wrap (some empty) none))
    check (!(← dataHasSuffix .wrap none (some empty)))
    check (← dataHasSuffix .wrap (some empty) (some empty))
    check (← dataHasSuffix .wrap (some (d "123")) (some empty))
    check (← dataHasSuffix .wrap (some (d "1234")) (some (d "234")))
    check (!(← dataHasSuffix .wrap (some (d "234")) (some (d "1234"))))
    check (!(← dataHasSuffix .wrap (some (d "1234")) (some (d "123"))))) = .ok () := by decide +kernel

/-- `test_data_from_bytes`, lines 533-554, `test_data_from_string`, lines 560-579, and `test_data_copy`, lines 585-610 -/
example : (do
    check (dataFromBytes none = empty)
    check (dataFromBytes (some (d "123")) = d "123")
    check ((← dataFromString none) = empty)
    check (← dataEqual .wrap (some (1, d "123")) (some (2, ← dataFromString (cs "123"))))
    check ((← dataCopy .wrap none) = none)
    check ((← dataCopy .wrap (some (d "123"))) = some (d "123"))
    check ((← dataNew .wrap none 1000) = empty)
    check ((← dataNew .wrap (some (s "123")) 3) = d "123")) = .ok () := by decide +kernel

/-- `test_data_copy_as_variant`, lines 616-639 -/
example : (do
    check ((← dataCopyAsVariant .wrap none) = none)
    check ((← dataCopyAsVariant .wrap (some empty)) = some [])
    check ((← dataCopyAsVariant .wrap (some (d "123"))) = some (s "123"))) = .ok () := by decide +kernel

/-- What `g_bytes_new_static` makes of them -/
def bytes (l : List Byte) : Data := ⟨some l, l.length⟩

/-- `test_bytes_concat`, lines 645-685; the result is one of the arguments (by number), or something new. -/
example : (do
    let b1 := bytes [0x01, 0x02, 0x03, 0x04, 0x05]
    let b2 := bytes [0x06, 0x07, 0x08, 0x09]
    check ((← bytesConcat .wrap none []) = none)
    check ((← bytesConcat .wrap (some b1) []) = some (BytesRes.ref 0))
    check ((← bytesConcat .wrap (some empty) []) = some (BytesRes.ref 0))
    check ((← bytesConcat .wrap (some b1) [empty]) = some (BytesRes.ref 0))
    check ((← bytesConcat .wrap (some empty) [b1]) = some (BytesRes.ref 1))
    check ((← bytesConcat .wrap (some b1) [empty, b2]) = some (BytesRes.new [0x01, 0x02, 0x03, 0x04, 0x05, 0x06, 0x07, 0x08, 0x09]))) = .ok () := by
  decide +kernel

/-- `test_bytes_xor`, lines 691-742, 8 bytes in a word and all of it aligned -/
example : (do
    let b1 := bytes [0x01, 0x02, 0x03, 0x04, 0x05, 0x06, 0x07, 0x08, 0x09]
    let b2 := bytes [0x00, 0x01, 0x02, 0x03, 0x04, 0x05, 0x06, 0x07, 0x08]
    check ((← bytesXor .wrap 8 0 0 (some b1) none) = none)
    check ((← bytesXor .wrap 8 0 0 none (some b1)) = none)
    check ((← bytesXor .wrap 8 0 0 none none) = none)
    check ((← bytesXor .wrap 8 0 0 (some empty) (some b1)) = some (BytesRes.ref 0))
    check ((← bytesXor .wrap 8 0 0 (some b1) (some empty)) = some (BytesRes.ref 1))
    check ((← bytesXor .wrap 8 0 0 (some b1) (some b1)) = some (BytesRes.new [0x00, 0x00, 0x00, 0x00, 0x00, 0x00, 0x00, 0x00, 0x00]))
    check ((← bytesXor .wrap 8 0 0 (some b1) (some b2)) = some (BytesRes.new [0x01, 0x03, 0x01, 0x07, 0x01, 0x03, 0x01, 0x0F, 0x01]))
    check ((← bytesXor .wrap 8 0 0 (some b1) (some (bytes [0x05, 0x06, 0x07, 0x08]))) = some (BytesRes.new [0x04, 0x04, 0x04, 0x0C]))) = .ok () := by
  decide +kernel

/-- `test_bytes_equal`, lines 748-796 -/
example : (do
    check (← bytesEqual .wrap none none 0)
    check (← bytesEqualData .wrap none none)
    -- `&data` as a pointer to bytes
    check (!(← bytesEqual .wrap none (some []) 0))
    check (!(← bytesEqual .wrap (some empty) none 0))
    check (!(← bytesEqualData .wrap (some empty) none))
    check (!(← bytesEqualData .wrap none (some empty)))
    check (← bytesEqual .wrap (some empty) (some []) 0)
    check (← bytesEqualData .wrap (some empty) (some empty))
    let data11 := bytes [0x01, 0x01]
    check (!(← bytesEqual .wrap (some empty) data11.bytes 2))
    check (!(← bytesEqualData .wrap (some empty) (some data11)))
    let data1 := bytes [0x01]
    check (!(← bytesEqual .wrap (some data1) data11.bytes 2))
    check (!(← bytesEqualData .wrap (some data1) (some data11)))
    let data2 := bytes [0x02]
    check (!(← bytesEqual .wrap (some data1) data2.bytes 1))
    check (!(← bytesEqualData .wrap (some data1) (some data2)))
    check (← bytesEqual .wrap (some data1) data1.bytes 1)
    check (← bytesEqualData .wrap (some data1) (some data1))) = .ok () := by decide +kernel

/-- `test_ptrv_length`, lines 802-813, `test_ptrv_is_empty`, lines 819-830, and `test_ptrv_free`, lines 836-848 -/
example : (do
    check ((← ptrvLength none) = 0)
    check ((← ptrvLength (some [.null])) = 0)
    check ((← ptrvLength (some [.ptr 0, .null])) = 1)
    check (← ptrvIsEmpty none)
    check (← ptrvIsEmpty (some [.null]))
    check (!(← ptrvIsEmpty (some [.ptr 0, .null])))
    check ((← ptrvFree [some []] none) = [some []])
    check ((← ptrvFree [some []] (some [.null])) = [some []])
    check ((← ptrvFree [some []] (some [.ptr 0, .null])) = [none])) = .ok () := by decide +kernel

/-- `test_memdup`, lines 854-869, and `test_strlen`, lines 875-883 -/
example : (do
    check ((← memdup .wrap (some [0x01, 0x02, 0x03]) 3) = some [0x01, 0x02, 0x03])
    check ((← memdup .wrap (some [0x01, 0x02, 0x03]) 0) = none)
    check ((← memdup .wrap none 0) = none)
    check ((← memdup .wrap none 1) = none)
    check ((← strlen0 none) = 0)
    check ((← strlen0 (cs "")) = 0)
    check ((← strlen0 (cs "1")) = 1)) = .ok () := by decide +kernel

/-- `test_range_init`, lines 889-907, and `test_range_prefix`, lines 913-959 -/
example : (do
    let data : List Byte := [0x01, 0x02, 0x03, 0x04]
    check (rangeInit none = ((⟨none, 0, 0⟩ : Range), 0))
    check (rangeInit (some (bytes [0x01, 0x02, 0x03])) = ((⟨some [0x01, 0x02, 0x03], 0, 3⟩ : Range), 3))
    check (!(← rangeHasPrefix .wrap none none))
    check (!(← rangeHasPrefix .wrap (some ⟨none, 0, 0⟩) none))
    let notPrefix := bytes [0x03, 0x04]
    let tooLong := bytes [0x01, 0x02, 0x03, 0x04, 0x05]
    let range : Range := ⟨some data, 0, 0⟩
    check (!(← rangeHasPrefix .wrap (some range) none))
    check (← rangeHasPrefix .wrap (some range) (some empty))
    check (!(← rangeHasPrefix .wrap (some range) (some notPrefix)))
    let pfx := bytes [0x01, 0x02]
    check (!(← rangeHasPrefix .wrap (some range) (some pfx)))
    let range : Range := ⟨some data, 0, 4⟩
    check (← rangeHasPrefix .wrap (some range) (some pfx))
    check (!(← rangeHasPrefix .wrap (some range) (some notPrefix)))
    check (!(← rangeHasPrefix .wrap (some range) (some tooLong)))
    check ((← rangeSkipPrefix .wrap (some range) (some notPrefix)) = (some range, false))
    check ((← rangeSkipPrefix .wrap (some range) (some pfx)) = (some (⟨some data, 2, 4⟩ : Range), true))) = .ok () := by decide +kernel

/-- `test_bytes_prefix`, lines 965-991, and `test_bytes_suffix`, lines 997-1023 -/
example : (do
    let b := bytes [0x01, 0x02, 0x03, 0x04]
    check (!(← bytesHasPrefix .wrap none none 0))
    check (← bytesHasPrefix .wrap (some empty) none 0)
    check (← bytesHasPrefix .wrap (some b) (some [0x01, 0x02]) 0)
    check (← bytesHasPrefix .wrap (some b) (some [0x01, 0x02]) 2)
    check (!(← bytesHasPrefix .wrap (some b) (some [0x03, 0x04]) 2))
    check (!(← bytesHasPrefix .wrap (some b) (some [0x01, 0x02, 0x03, 0x04, 0x05]) 5))
    check (!(← bytesHasSuffix .wrap none none 0))
    check (← bytesHasSuffix .wrap (some empty) none 0)
    check (← bytesHasSuffix .wrap (some b) (some [0x03, 0x04]) 0)
    check (← bytesHasSuffix .wrap (some b) (some [0x03, 0x04]) 2)
    check (!(← bytesHasSuffix .wrap (some b) (some [0x02, 0x03]) 2))
    check (!(← bytesHasSuffix .wrap (some b) (some [0x01, 0x02, 0x03, 0x04, 0x05]) 5))) = .ok () := by decide +kernel

end Verif.Check.Misc
