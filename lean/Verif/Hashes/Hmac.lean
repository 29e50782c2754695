import Verif.Hashes.Sha2
/-!
# HMAC, HKDF and tagged hashes (`hashes/src/hmac/mod.rs`, `hashes/src/hkdf/mod.rs`, `hashes/src/sha256t/mod.rs`)
-/
namespace Btc
namespace Hashes

/-- The `HashEngine` trait (lib.rs 168-200): an engine with a default, `input`, `finalize`, `BLOCK_SIZE`. -/
structure Alg where
  S : Type
  new : S
  input : S → Bytes → S
  finish : S → Bytes
  block : Nat

/-- `for (b_i, b_h) in pad.iter_mut().zip(key) { *b_i ^= *b_h }`. -/
def xorPrefix : Bytes → Bytes → Bytes
  | p :: ps, k :: ks => (p ^^^ k) :: xorPrefix ps ks
  | ps, _ => ps

/-- `HmacEngine` (hmac/mod.rs 85-88). -/
structure HmacEng (A : Alg) where
  i : A.S
  o : A.S

/-- `HmacEngine::new` (hmac/mod.rs 98-135); `none` is the failed assertion on the block size. -/
def HmacEng.new (A : Alg) (key : Bytes) : Option (HmacEng A) :=
  if A.block ≤ 128 then
    let ipad := List.replicate 128 0x36
    let opad := List.replicate 128 0x5c
    let (ipad, opad) :=
      if key.length > A.block then
        let hash := A.finish (A.input A.new key)
        (xorPrefix ipad hash, xorPrefix opad hash)
      else (xorPrefix ipad key, xorPrefix opad key)
    some ⟨A.input A.new (ipad.take A.block), A.input A.new (opad.take A.block)⟩
  else none

/-- `input` and `finalize` (hmac/mod.rs 158-163). -/
def HmacEng.input {A : Alg} (e : HmacEng A) (buf : Bytes) : HmacEng A := { e with i := A.input e.i buf }
def HmacEng.finish {A : Alg} (e : HmacEng A) : Bytes := A.finish (A.input e.o (A.finish e.i))

/-- Results of `Hkdf::expand`. -/
inductive HkdfErr where
  | maxLength (max : Nat)
  | panic
  deriving DecidableEq

/-- `Hkdf::new` (hkdf/mod.rs 53-57): the extracted key. -/
def hkdfNew (A : Alg) (salt ikm : Bytes) : Option Bytes :=
  (HmacEng.new A salt).map fun e => (e.input ikm).finish

/-- One round of the loop in `expand` (hkdf/mod.rs 79-104) for counter value `c`, `okm` being the output buffer; `LEN` is the length of
the digest. -/
def expandRound (A : Alg) (LEN : Nat) (prk info : Bytes) (total c : Nat) (okm : Bytes) : Option Bytes :=
  match HmacEng.new A prk with
  | none => none
  | some e =>
    -- `previous_start_index` underflows for counter 0
    if c = 0 then none
    else
      let e := if c ≠ 1 then e.input ((okm.drop ((c - 2) * LEN)).take LEN) else e
      let e := (e.input info).input [UInt8.ofNat c]
      let t := e.finish
      let start := (c - 1) * LEN
      let stop := if c = total % 256 then okm.length else c * LEN
      -- the two slices of `copy_from_slice`
      if start ≤ stop ∧ stop ≤ okm.length ∧ stop - start ≤ t.length then some (splice okm start (t.take (stop - start))) else none

/-- The loop (hkdf/mod.rs 79-104).  The counter is a `u8`; `counter += 1` panics at 255 with overflow checks and wraps to 0 without,
and then the round for 0 panics.  The fuel argument is more than there are counter values. -/
def expandLoop (A : Alg) (LEN : Nat) (prk info : Bytes) (total : Nat) : Nat → Nat → Bytes → Option Bytes
  | 0, _, _ => none
  | fuel + 1, c, okm =>
    if c ≤ total % 256 then
      match expandRound A LEN prk info total c okm with
      | none => none
      | some okm => expandLoop A LEN prk info total fuel ((c + 1) % 256) okm
    else some okm

/-- `Hkdf::expand` (hkdf/mod.rs 68-107) on an output buffer with contents `okm`. -/
def hkdfExpand (A : Alg) (LEN : Nat) (prk info okm : Bytes) : Except HkdfErr Bytes :=
  if okm.length > 255 * LEN then .error (.maxLength (255 * LEN))
  else
    match expandLoop A LEN prk info ((okm.length + LEN - 1) / LEN) 300 1 okm with
    | some r => .ok r
    | none => .error .panic

/-- The engines of the crate as `Alg`s. -/
def sha256Alg : Alg := ⟨Sha2.Engine256, Sha2.new256, Sha2.input256, Sha2.finish256, 64⟩
def sha512Alg : Alg := ⟨Sha2.Engine512, Sha2.new512, Sha2.input512, Sha2.finish512, 128⟩
/-- `sha256t::HashEngine<T>` (sha256t/mod.rs 127-150) for a tag with `MIDSTATE = Midstate::hash_tag(tag)`. -/
def sha256tAlg (tag : Bytes) : Alg :=
  ⟨Sha2.Engine256, (Sha2.Midstate.hashTag tag).toEngine, Sha2.input256, Sha2.finish256, 64⟩

end Hashes
end Btc
