import Verif.Script.Script
import Verif.Text
import Verif.Addresses.Network
/-!
# The text of scripts and opcodes

`Display` of scripts (primitives/src/script/mod.rs 315-380) with `fmt_opcode` (primitives/src/opcodes.rs 188-314), and the names of
opcodes in the `bitcoin` crate (bitcoin/src/blockdata/opcodes.rs 41-50, 118-318, 433). Writing to the formatter cannot fail here.
-/
namespace Btc
namespace Scr

/-- `fmt_opcode` (primitives/src/opcodes.rs 188-314). -/
def asmName (op : UInt8) : Bytes :=
  if op = 0x00 then Net.str "OP_0" else
  if 0x01 ≤ op ∧ op ≤ 0x4b then Net.str "OP_PUSHBYTES_" ++ decBytes op.toNat else
  if op = 0x4c then Net.str "OP_PUSHDATA1" else
  if op = 0x4d then Net.str "OP_PUSHDATA2" else
  if op = 0x4e then Net.str "OP_PUSHDATA4" else
  if op = 0x4f then Net.str "OP_1NEGATE" else
  if op = 0x50 then Net.str "OP_RESERVED" else
  if 0x51 ≤ op ∧ op ≤ 0x60 then Net.str "OP_" ++ decBytes (op - 0x50).toNat else
  if op = 0x61 then Net.str "OP_NOP" else
  if op = 0x62 then Net.str "OP_VER" else
  if op = 0x63 then Net.str "OP_IF" else
  if op = 0x64 then Net.str "OP_NOTIF" else
  if op = 0x65 then Net.str "OP_VERIF" else
  if op = 0x66 then Net.str "OP_VERNOTIF" else
  if op = 0x67 then Net.str "OP_ELSE" else
  if op = 0x68 then Net.str "OP_ENDIF" else
  if op = 0x69 then Net.str "OP_VERIFY" else
  if op = 0x6a then Net.str "OP_RETURN" else
  if op = 0x6b then Net.str "OP_TOALTSTACK" else
  if op = 0x6c then Net.str "OP_FROMALTSTACK" else
  if op = 0x6d then Net.str "OP_2DROP" else
  if op = 0x6e then Net.str "OP_2DUP" else
  if op = 0x6f then Net.str "OP_3DUP" else
  if op = 0x70 then Net.str "OP_2OVER" else
  if op = 0x71 then Net.str "OP_2ROT" else
  if op = 0x72 then Net.str "OP_2SWAP" else
  if op = 0x73 then Net.str "OP_IFDUP" else
  if op = 0x74 then Net.str "OP_DEPTH" else
  if op = 0x75 then Net.str "OP_DROP" else
  if op = 0x76 then Net.str "OP_DUP" else
  if op = 0x77 then Net.str "OP_NIP" else
  if op = 0x78 then Net.str "OP_OVER" else
  if op = 0x79 then Net.str "OP_PICK" else
  if op = 0x7a then Net.str "OP_ROLL" else
  if op = 0x7b then Net.str "OP_ROT" else
  if op = 0x7c then Net.str "OP_SWAP" else
  if op = 0x7d then Net.str "OP_TUCK" else
  if op = 0x7e then Net.str "OP_CAT" else
  if op = 0x7f then Net.str "OP_SUBSTR" else
  if op = 0x80 then Net.str "OP_LEFT" else
  if op = 0x81 then Net.str "OP_RIGHT" else
  if op = 0x82 then Net.str "OP_SIZE" else
  if op = 0x83 then Net.str "OP_INVERT" else
  if op = 0x84 then Net.str "OP_AND" else
  if op = 0x85 then Net.str "OP_OR" else
  if op = 0x86 then Net.str "OP_XOR" else
  if op = 0x87 then Net.str "OP_EQUAL" else
  if op = 0x88 then Net.str "OP_EQUALVERIFY" else
  if op = 0x89 then Net.str "OP_RESERVED1" else
  if op = 0x8a then Net.str "OP_RESERVED2" else
  if op = 0x8b then Net.str "OP_1ADD" else
  if op = 0x8c then Net.str "OP_1SUB" else
  if op = 0x8d then Net.str "OP_2MUL" else
  if op = 0x8e then Net.str "OP_2DIV" else
  if op = 0x8f then Net.str "OP_NEGATE" else
  if op = 0x90 then Net.str "OP_ABS" else
  if op = 0x91 then Net.str "OP_NOT" else
  if op = 0x92 then Net.str "OP_0NOTEQUAL" else
  if op = 0x93 then Net.str "OP_ADD" else
  if op = 0x94 then Net.str "OP_SUB" else
  if op = 0x95 then Net.str "OP_MUL" else
  if op = 0x96 then Net.str "OP_DIV" else
  if op = 0x97 then Net.str "OP_MOD" else
  if op = 0x98 then Net.str "OP_LSHIFT" else
  if op = 0x99 then Net.str "OP_RSHIFT" else
  if op = 0x9a then Net.str "OP_BOOLAND" else
  if op = 0x9b then Net.str "OP_BOOLOR" else
  if op = 0x9c then Net.str "OP_NUMEQUAL" else
  if op = 0x9d then Net.str "OP_NUMEQUALVERIFY" else
  if op = 0x9e then Net.str "OP_NUMNOTEQUAL" else
  if op = 0x9f then Net.str "OP_LESSTHAN" else
  if op = 0xa0 then Net.str "OP_GREATERTHAN" else
  if op = 0xa1 then Net.str "OP_LESSTHANOREQUAL" else
  if op = 0xa2 then Net.str "OP_GREATERTHANOREQUAL" else
  if op = 0xa3 then Net.str "OP_MIN" else
  if op = 0xa4 then Net.str "OP_MAX" else
  if op = 0xa5 then Net.str "OP_WITHIN" else
  if op = 0xa6 then Net.str "OP_RIPEMD160" else
  if op = 0xa7 then Net.str "OP_SHA1" else
  if op = 0xa8 then Net.str "OP_SHA256" else
  if op = 0xa9 then Net.str "OP_HASH160" else
  if op = 0xaa then Net.str "OP_HASH256" else
  if op = 0xab then Net.str "OP_CODESEPARATOR" else
  if op = 0xac then Net.str "OP_CHECKSIG" else
  if op = 0xad then Net.str "OP_CHECKSIGVERIFY" else
  if op = 0xae then Net.str "OP_CHECKMULTISIG" else
  if op = 0xaf then Net.str "OP_CHECKMULTISIGVERIFY" else
  if op = 0xb1 then Net.str "OP_CLTV" else
  if op = 0xb2 then Net.str "OP_CSV" else
  if 0xb0 ≤ op ∧ op ≤ 0xb9 then Net.str "OP_NOP" ++ decBytes (op - 0xb0 + 1).toNat else
  if op = 0xba then Net.str "OP_CHECKSIGADD" else
  if 0xbb ≤ op ∧ op ≤ 0xfe then Net.str "OP_RETURN_" ++ decBytes op.toNat else
  Net.str "OP_INVALIDOPCODE"

/-- The arms of `opcode_to_str` in their order (bitcoin/src/blockdata/opcodes.rs 43-48, 118-318, with the values of the re-exported
opcodes from primitives/src/opcodes.rs 74-160). -/
def opcodeTable : List (UInt8 × String) := [
  (0x00, "OP_PUSHBYTES_0"), (0x01, "OP_PUSHBYTES_1"), (0x02, "OP_PUSHBYTES_2"), (0x03, "OP_PUSHBYTES_3"), (0x04, "OP_PUSHBYTES_4"),
  (0x05, "OP_PUSHBYTES_5"), (0x06, "OP_PUSHBYTES_6"), (0x07, "OP_PUSHBYTES_7"), (0x08, "OP_PUSHBYTES_8"), (0x09, "OP_PUSHBYTES_9"),
  (0x0a, "OP_PUSHBYTES_10"), (0x0b, "OP_PUSHBYTES_11"), (0x0c, "OP_PUSHBYTES_12"), (0x0d, "OP_PUSHBYTES_13"),
  (0x0e, "OP_PUSHBYTES_14"), (0x0f, "OP_PUSHBYTES_15"), (0x10, "OP_PUSHBYTES_16"), (0x11, "OP_PUSHBYTES_17"),
  (0x12, "OP_PUSHBYTES_18"), (0x13, "OP_PUSHBYTES_19"), (0x14, "OP_PUSHBYTES_20"), (0x15, "OP_PUSHBYTES_21"),
  (0x16, "OP_PUSHBYTES_22"), (0x17, "OP_PUSHBYTES_23"), (0x18, "OP_PUSHBYTES_24"), (0x19, "OP_PUSHBYTES_25"),
  (0x1a, "OP_PUSHBYTES_26"), (0x1b, "OP_PUSHBYTES_27"), (0x1c, "OP_PUSHBYTES_28"), (0x1d, "OP_PUSHBYTES_29"),
  (0x1e, "OP_PUSHBYTES_30"), (0x1f, "OP_PUSHBYTES_31"), (0x20, "OP_PUSHBYTES_32"), (0x21, "OP_PUSHBYTES_33"),
  (0x22, "OP_PUSHBYTES_34"), (0x23, "OP_PUSHBYTES_35"), (0x24, "OP_PUSHBYTES_36"), (0x25, "OP_PUSHBYTES_37"),
  (0x26, "OP_PUSHBYTES_38"), (0x27, "OP_PUSHBYTES_39"), (0x28, "OP_PUSHBYTES_40"), (0x29, "OP_PUSHBYTES_41"),
  (0x2a, "OP_PUSHBYTES_42"), (0x2b, "OP_PUSHBYTES_43"), (0x2c, "OP_PUSHBYTES_44"), (0x2d, "OP_PUSHBYTES_45"),
  (0x2e, "OP_PUSHBYTES_46"), (0x2f, "OP_PUSHBYTES_47"), (0x30, "OP_PUSHBYTES_48"), (0x31, "OP_PUSHBYTES_49"),
  (0x32, "OP_PUSHBYTES_50"), (0x33, "OP_PUSHBYTES_51"), (0x34, "OP_PUSHBYTES_52"), (0x35, "OP_PUSHBYTES_53"),
  (0x36, "OP_PUSHBYTES_54"), (0x37, "OP_PUSHBYTES_55"), (0x38, "OP_PUSHBYTES_56"), (0x39, "OP_PUSHBYTES_57"),
  (0x3a, "OP_PUSHBYTES_58"), (0x3b, "OP_PUSHBYTES_59"), (0x3c, "OP_PUSHBYTES_60"), (0x3d, "OP_PUSHBYTES_61"),
  (0x3e, "OP_PUSHBYTES_62"), (0x3f, "OP_PUSHBYTES_63"), (0x40, "OP_PUSHBYTES_64"), (0x41, "OP_PUSHBYTES_65"),
  (0x42, "OP_PUSHBYTES_66"), (0x43, "OP_PUSHBYTES_67"), (0x44, "OP_PUSHBYTES_68"), (0x45, "OP_PUSHBYTES_69"),
  (0x46, "OP_PUSHBYTES_70"), (0x47, "OP_PUSHBYTES_71"), (0x48, "OP_PUSHBYTES_72"), (0x49, "OP_PUSHBYTES_73"),
  (0x4a, "OP_PUSHBYTES_74"), (0x4b, "OP_PUSHBYTES_75"), (0x4c, "OP_PUSHDATA1"), (0x4d, "OP_PUSHDATA2"), (0x4e, "OP_PUSHDATA4"),
  (0x50, "OP_RESERVED"), (0x62, "OP_VER"), (0x65, "OP_VERIF"), (0x66, "OP_VERNOTIF"), (0x7e, "OP_CAT"), (0x7f, "OP_SUBSTR"),
  (0x80, "OP_LEFT"), (0x81, "OP_RIGHT"), (0x83, "OP_INVERT"), (0x84, "OP_AND"), (0x85, "OP_OR"), (0x86, "OP_XOR"),
  (0x89, "OP_RESERVED1"), (0x8a, "OP_RESERVED2"), (0x8d, "OP_2MUL"), (0x8e, "OP_2DIV"), (0x95, "OP_MUL"), (0x96, "OP_DIV"),
  (0x97, "OP_MOD"), (0x98, "OP_LSHIFT"), (0x99, "OP_RSHIFT"), (0xb0, "OP_NOP1"), (0xb1, "OP_CLTV"), (0xb2, "OP_CSV"),
  (0xb3, "OP_NOP4"), (0xb4, "OP_NOP5"), (0xb5, "OP_NOP6"), (0xb6, "OP_NOP7"), (0xb7, "OP_NOP8"), (0xb8, "OP_NOP9"),
  (0xb9, "OP_NOP10"), (0xbb, "OP_RETURN_187"), (0xbc, "OP_RETURN_188"), (0xbd, "OP_RETURN_189"), (0xbe, "OP_RETURN_190"),
  (0xbf, "OP_RETURN_191"), (0xc0, "OP_RETURN_192"), (0xc1, "OP_RETURN_193"), (0xc2, "OP_RETURN_194"), (0xc3, "OP_RETURN_195"),
  (0xc4, "OP_RETURN_196"), (0xc5, "OP_RETURN_197"), (0xc6, "OP_RETURN_198"), (0xc7, "OP_RETURN_199"), (0xc8, "OP_RETURN_200"),
  (0xc9, "OP_RETURN_201"), (0xca, "OP_RETURN_202"), (0xcb, "OP_RETURN_203"), (0xcc, "OP_RETURN_204"), (0xcd, "OP_RETURN_205"),
  (0xce, "OP_RETURN_206"), (0xcf, "OP_RETURN_207"), (0xd0, "OP_RETURN_208"), (0xd1, "OP_RETURN_209"), (0xd2, "OP_RETURN_210"),
  (0xd3, "OP_RETURN_211"), (0xd4, "OP_RETURN_212"), (0xd5, "OP_RETURN_213"), (0xd6, "OP_RETURN_214"), (0xd7, "OP_RETURN_215"),
  (0xd8, "OP_RETURN_216"), (0xd9, "OP_RETURN_217"), (0xda, "OP_RETURN_218"), (0xdb, "OP_RETURN_219"), (0xdc, "OP_RETURN_220"),
  (0xdd, "OP_RETURN_221"), (0xde, "OP_RETURN_222"), (0xdf, "OP_RETURN_223"), (0xe0, "OP_RETURN_224"), (0xe1, "OP_RETURN_225"),
  (0xe2, "OP_RETURN_226"), (0xe3, "OP_RETURN_227"), (0xe4, "OP_RETURN_228"), (0xe5, "OP_RETURN_229"), (0xe6, "OP_RETURN_230"),
  (0xe7, "OP_RETURN_231"), (0xe8, "OP_RETURN_232"), (0xe9, "OP_RETURN_233"), (0xea, "OP_RETURN_234"), (0xeb, "OP_RETURN_235"),
  (0xec, "OP_RETURN_236"), (0xed, "OP_RETURN_237"), (0xee, "OP_RETURN_238"), (0xef, "OP_RETURN_239"), (0xf0, "OP_RETURN_240"),
  (0xf1, "OP_RETURN_241"), (0xf2, "OP_RETURN_242"), (0xf3, "OP_RETURN_243"), (0xf4, "OP_RETURN_244"), (0xf5, "OP_RETURN_245"),
  (0xf6, "OP_RETURN_246"), (0xf7, "OP_RETURN_247"), (0xf8, "OP_RETURN_248"), (0xf9, "OP_RETURN_249"), (0xfa, "OP_RETURN_250"),
  (0xfb, "OP_RETURN_251"), (0xfc, "OP_RETURN_252"), (0xfd, "OP_RETURN_253"), (0xfe, "OP_RETURN_254"), (0xff, "OP_INVALIDOPCODE"),
  (0x4f, "OP_1NEGATE"), (0x51, "OP_1"), (0x52, "OP_2"), (0x53, "OP_3"), (0x54, "OP_4"), (0x55, "OP_5"), (0x56, "OP_6"),
  (0x57, "OP_7"), (0x58, "OP_8"), (0x59, "OP_9"), (0x5a, "OP_10"), (0x5b, "OP_11"), (0x5c, "OP_12"), (0x5d, "OP_13"),
  (0x5e, "OP_14"), (0x5f, "OP_15"), (0x60, "OP_16"), (0x61, "OP_NOP"), (0x63, "OP_IF"), (0x64, "OP_NOTIF"), (0x67, "OP_ELSE"),
  (0x68, "OP_ENDIF"), (0x69, "OP_VERIFY"), (0x6a, "OP_RETURN"), (0x6b, "OP_TOALTSTACK"), (0x6c, "OP_FROMALTSTACK"),
  (0x6d, "OP_2DROP"), (0x6e, "OP_2DUP"), (0x6f, "OP_3DUP"), (0x70, "OP_2OVER"), (0x71, "OP_2ROT"), (0x72, "OP_2SWAP"),
  (0x73, "OP_IFDUP"), (0x74, "OP_DEPTH"), (0x75, "OP_DROP"), (0x76, "OP_DUP"), (0x77, "OP_NIP"), (0x78, "OP_OVER"),
  (0x79, "OP_PICK"), (0x7a, "OP_ROLL"), (0x7b, "OP_ROT"), (0x7c, "OP_SWAP"), (0x7d, "OP_TUCK"), (0x82, "OP_SIZE"),
  (0x87, "OP_EQUAL"), (0x88, "OP_EQUALVERIFY"), (0x8b, "OP_1ADD"), (0x8c, "OP_1SUB"), (0x8f, "OP_NEGATE"), (0x90, "OP_ABS"),
  (0x91, "OP_NOT"), (0x92, "OP_0NOTEQUAL"), (0x93, "OP_ADD"), (0x94, "OP_SUB"), (0x9a, "OP_BOOLAND"), (0x9b, "OP_BOOLOR"),
  (0x9c, "OP_NUMEQUAL"), (0x9d, "OP_NUMEQUALVERIFY"), (0x9e, "OP_NUMNOTEQUAL"), (0x9f, "OP_LESSTHAN"), (0xa0, "OP_GREATERTHAN"),
  (0xa1, "OP_LESSTHANOREQUAL"), (0xa2, "OP_GREATERTHANOREQUAL"), (0xa3, "OP_MIN"), (0xa4, "OP_MAX"), (0xa5, "OP_WITHIN"),
  (0xa6, "OP_RIPEMD160"), (0xa7, "OP_SHA1"), (0xa8, "OP_SHA256"), (0xa9, "OP_HASH160"), (0xaa, "OP_HASH256"),
  (0xab, "OP_CODESEPARATOR"), (0xac, "OP_CHECKSIG"), (0xad, "OP_CHECKSIGVERIFY"), (0xae, "OP_CHECKMULTISIG"),
  (0xaf, "OP_CHECKMULTISIGVERIFY"), (0xba, "OP_CHECKSIGADD")]
/-- `opcode_to_str`, `OpcodeExt::as_str` (41-50, 433), `Display for Opcode` is not implemented; the match is exhaustive, so the default is
never taken (`asmName_facts` in Props/C84). -/
def opcodeStr (op : UInt8) : Bytes := Net.str ((opcodeTable.find? fun x => x.1 == op).map Prod.snd |>.getD "")

/-- How many bytes follow as data, and the rest of the script after the length bytes; `none` is the early end (script/mod.rs 338-356). -/
def asmLen (byte : UInt8) (rest : Bytes) : Option (Nat × Bytes) :=
  if byte ≤ 75 then some (byte.toNat, rest)
  else if byte = OP_PUSHDATA1 then readPushDataLen rest 1
  else if byte = OP_PUSHDATA2 then readPushDataLen rest 2
  else if byte = OP_PUSHDATA4 then readPushDataLen rest 4
  else some (0, rest)

/-- The loop (335-377); `one` is `at_least_one`. -/
def asmLoop : Nat → Bytes → Bool → Bytes
  | 0, _, _ => []
  | _, [], _ => []
  | fuel + 1, byte :: rest, one =>
    match asmLen byte rest with
    | none => Net.str "<unexpected end>"
    | some (n, rest) =>
      (if one then [32] else []) ++ asmName byte ++
        if n > 0 then
          32 :: (if n ≤ rest.length then hexBytes (rest.take n) ++ asmLoop fuel (rest.drop n) true
            else Net.str "<push past end>")
        else asmLoop fuel rest true

/-- `Display for Script` (315-380), `to_asm_string`, `fmt_asm` (bitcoin/src/blockdata/script/borrowed.rs 123-129). Every turn of the loop
takes a byte, so the fuel does not run out. -/
def asm (s : Bytes) : Bytes := asmLoop s.length s false
/-- `Debug for Script` (302-308). -/
def debug (s : Bytes) : Bytes := Net.str "Script(" ++ asm s ++ [41]

end Scr
end Btc
