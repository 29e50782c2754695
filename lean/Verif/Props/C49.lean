import Verif.Hashes.Hmac
import Verif.Props.C62
/-!
# C49: HMAC and tagged hashes follow their definitions
-/
namespace Btc
namespace Hashes

/-- An engine computes `H` on every sequence of inputs of less than `N` bytes in all. -/
def Alg.Computes (A : Alg) (H : Bytes → Bytes) (N : Nat) : Prop :=
  ∀ xs : List Bytes, xs.flatten.length < N → A.finish (xs.foldl A.input A.new) = H xs.flatten

/-- RFC 2104: the key, hashed if it is longer than a block, filled up with zeros. -/
def hmacKey (H : Bytes → Bytes) (B : Nat) (key : Bytes) : Bytes :=
  let k := if key.length > B then H key else key
  k ++ List.replicate (B - k.length) 0
def hmac (H : Bytes → Bytes) (B : Nat) (key msg : Bytes) : Bytes :=
  H ((hmacKey H B key).map (· ^^^ 0x5c) ++ H ((hmacKey H B key).map (· ^^^ 0x36) ++ msg))

theorem xorPrefix_pad (n : Nat) (p : UInt8) (k : Bytes) (B : Nat) (hk : k.length ≤ B) (hB : B ≤ n) :
    (xorPrefix (List.replicate n p) k).take B = (k ++ List.replicate (B - k.length) 0).map (· ^^^ p) := by
  induction k generalizing n B with
  | nil =>
    have h : xorPrefix (List.replicate n p) [] = List.replicate n p := by cases n <;> rfl
    rw [h, List.take_replicate, Nat.min_eq_left hB]
    simp
  | cons x k ih =>
    cases n with
    | zero => simp at hk; omega
    | succ n =>
      cases B with
      | zero => simp at hk
      | succ B =>
        rw [List.replicate_succ, xorPrefix, List.take_succ_cons, ih n B (by simpa using hk) (by omega)]
        simp only [List.cons_append, List.map_cons, List.length_cons, Nat.add_sub_add_right]
        rw [UInt8.xor_comm]

theorem hmacKey_length (H : Bytes → Bytes) (B : Nat) (key : Bytes) (hH : (H key).length ≤ B) : (hmacKey H B key).length = B := by
  unfold hmacKey
  simp only
  split
  · simp; omega
  · simp; omega

/-- HMAC over any engine with blocks of at most 128 bytes and digests of at most a block, for every way of feeding the message, is
RFC 2104's HMAC over the function the engine computes. -/
theorem C49_hmac (A : Alg) (H : Bytes → Bytes) (N : Nat) (hA : A.Computes H N) (hB : A.block ≤ 128) (hlen : ∀ m, (H m).length ≤ A.block)
    (key : Bytes) (hk : key.length < N) (xs : List Bytes) (hxs : A.block + xs.flatten.length < N) (hN : 2 * A.block < N) :
    ∃ e, HmacEng.new A key = some e ∧ (xs.foldl HmacEng.input e).finish = hmac H A.block key xs.flatten := by
  have hkey : A.finish (A.input A.new key) = H key := by
    have := hA [key] (by simpa using hk)
    simpa using this
  have hi : (if key.length > A.block then
        (xorPrefix (List.replicate 128 0x36) (A.finish (A.input A.new key)), xorPrefix (List.replicate 128 0x5c) (A.finish (A.input A.new key)))
      else (xorPrefix (List.replicate 128 0x36) key, xorPrefix (List.replicate 128 0x5c) key)).1.take A.block =
      (hmacKey H A.block key).map (· ^^^ 0x36) := by
    unfold hmacKey
    rw [hkey]
    split
    · exact xorPrefix_pad 128 _ _ _ (hlen key) hB
    · exact xorPrefix_pad 128 _ _ _ (by omega) hB
  have ho : (if key.length > A.block then
        (xorPrefix (List.replicate 128 0x36) (A.finish (A.input A.new key)), xorPrefix (List.replicate 128 0x5c) (A.finish (A.input A.new key)))
      else (xorPrefix (List.replicate 128 0x36) key, xorPrefix (List.replicate 128 0x5c) key)).2.take A.block =
      (hmacKey H A.block key).map (· ^^^ 0x5c) := by
    unfold hmacKey
    rw [hkey]
    split
    · exact xorPrefix_pad 128 _ _ _ (hlen key) hB
    · exact xorPrefix_pad 128 _ _ _ (by omega) hB
  have hnew : HmacEng.new A key = some ⟨A.input A.new ((hmacKey H A.block key).map (· ^^^ 0x36)),
      A.input A.new ((hmacKey H A.block key).map (· ^^^ 0x5c))⟩ := by
    rw [← hi, ← ho]
    unfold HmacEng.new
    rw [if_pos hB]
  refine ⟨_, hnew, ?_⟩
  have hfold : ∀ (ys : List Bytes) (e : HmacEng A), ys.foldl HmacEng.input e = ⟨ys.foldl A.input e.i, e.o⟩ := by
    intro ys
    induction ys with
    | nil => intro e; rfl
    | cons y ys ih => intro e; rw [List.foldl_cons, ih]; rfl
  rw [hfold]
  unfold HmacEng.finish hmac
  have hkl := hmacKey_length H A.block key (hlen key)
  have h1 := hA ((hmacKey H A.block key).map (· ^^^ 0x36) :: xs) (by simp only [List.flatten_cons, List.length_append, List.length_map, hkl]; omega)
  rw [List.foldl_cons, List.flatten_cons] at h1
  rw [h1]
  have h2 := hA [(hmacKey H A.block key).map (· ^^^ 0x5c), H ((hmacKey H A.block key).map (· ^^^ 0x36) ++ xs.flatten)] (by
    simp only [List.flatten_cons, List.flatten_nil, List.append_nil, List.length_append, List.length_map, hkl]
    have := hlen ((hmacKey H A.block key).map (· ^^^ 0x36) ++ xs.flatten)
    omega)
  simpa using h2

/-- An engine with larger blocks (SHA-3) is refused. -/
theorem C49_hmac_block_size (A : Alg) (key : Bytes) : (HmacEng.new A key = none) ↔ 128 < A.block := by
  unfold HmacEng.new
  by_cases h : A.block ≤ 128
  · rw [if_pos h]; simp; omega
  · rw [if_neg h]; simp; omega

theorem sha256_computes : sha256Alg.Computes Fips.sha256 (2 ^ 61) := fun xs h => Sha2.C62_sha256 xs h
theorem sha512_computes : sha512Alg.Computes Fips.sha512 (2 ^ 61) := fun xs h => Sha2.C62_sha512 xs h

theorem fips_sha256_length (m : Bytes) : (Fips.sha256 m).length = 32 := by
  unfold Fips.sha256 Fips.hash Sha2.St.toList; simp
theorem fips_sha512_length (m : Bytes) : (Fips.sha512 m).length = 64 := by
  unfold Fips.sha512 Fips.sha512With Fips.hash Sha2.St.toList; simp

/-- HMAC-SHA-256 and HMAC-SHA-512. -/
theorem C49_hmac_sha256 (key : Bytes) (hk : key.length < 2 ^ 61) (xs : List Bytes) (hxs : 64 + xs.flatten.length < 2 ^ 61) :
    ∃ e, HmacEng.new sha256Alg key = some e ∧ (xs.foldl HmacEng.input e).finish = hmac Fips.sha256 64 key xs.flatten :=
  C49_hmac sha256Alg Fips.sha256 (2 ^ 61) sha256_computes (by decide) (fun m => by rw [fips_sha256_length]; decide) key hk xs hxs (by decide)
theorem C49_hmac_sha512 (key : Bytes) (hk : key.length < 2 ^ 61) (xs : List Bytes) (hxs : 128 + xs.flatten.length < 2 ^ 61) :
    ∃ e, HmacEng.new sha512Alg key = some e ∧ (xs.foldl HmacEng.input e).finish = hmac Fips.sha512 128 key xs.flatten :=
  C49_hmac sha512Alg Fips.sha512 (2 ^ 61) sha512_computes (by decide) (fun m => by rw [fips_sha512_length]; decide) key hk xs hxs (by decide)

open Sha2 in
/-- A tagged hash engine, for any tag and any way of feeding the message: SHA256(SHA256(tag) ‖ SHA256(tag) ‖ message), and it counts
64 bytes more than the message. -/
theorem C49_tagged (tag : Bytes) (ht : tag.length < 2 ^ 61) (xs : List Bytes) (hxs : 64 + xs.flatten.length < 2 ^ 61) :
    let e := xs.foldl (sha256tAlg tag).input (sha256tAlg tag).new
    (sha256tAlg tag).finish e = Fips.sha256 (Fips.sha256 tag ++ Fips.sha256 tag ++ xs.flatten) ∧
    Eng.bytesHashed (σ := St 32) e = 64 + xs.flatten.length := by
  intro e
  have hl : (Fips.sha256 tag ++ Fips.sha256 tag).length = 64 := by rw [List.length_append, fips_sha256_length]
  have hmid : Midstate.hashTag tag = ⟨(comp256 iv256 (Fips.sha256 tag ++ Fips.sha256 tag)).bytes 4, 64⟩ := by
    unfold Midstate.hashTag Midstate.update2x32
    rw [C62_unoptimized tag ht, ← (C62_update_64 Midstate.iv _ hl).1, (C62_update_64 Midstate.iv _ hl).2, midstate_iv, comp256_eq]
    rfl
  have hr : Rep 64 comp256 iv256 (Midstate.hashTag tag).toEngine (Fips.sha256 tag ++ Fips.sha256 tag) := by
    rw [hmid]
    exact ⟨by simp [Midstate.toEngine], hl.symm, Fips.sha256 tag ++ Fips.sha256 tag, [], by simp, by rw [hl], by simp, by simp, by
      unfold Midstate.toEngine; simp only
      rw [stateOfBytes_bytes, processBlocks_one 64 (by omega) comp256 _ _ hl]⟩
  have h2 := rep_inputs 64 (by omega) comp256 iv256 xs _ _ hr (by rw [List.length_append, hl]; omega)
  have h3 : (Fips.sha256 tag ++ Fips.sha256 tag ++ xs.flatten).length < 2 ^ 61 := by rw [List.length_append, hl]; omega
  constructor
  · rw [← sha256_eq _ h3, sha256_blocks _ h3]
    show ((xs.foldl (fun e x => e.input 64 comp256 x) (Midstate.hashTag tag).toEngine).finish 64 8 (beBytes 8) comp256).bytes 4 = _
    rw [rep_finish 64 8 (by omega) (by omega) (beBytes 8) (by simp) comp256 iv256 _ _ h2 (by omega)]
    rfl
  · have := h2.2.1
    rw [List.length_append, hl] at this
    exact this

/-- RFC 4231 test case 2: key "Jefe", data "what do ya want for nothing?", cut in two. -/
example : ((HmacEng.new sha256Alg [0x4a, 0x65, 0x66, 0x65]).map fun e => ((e.input ("what do ya want ".toUTF8.toList)).input
    ("for nothing?".toUTF8.toList)).finish.take 8) = some [0x5b, 0xdc, 0xc1, 0x46, 0xbf, 0x60, 0x75, 0x4e] := by decide +kernel
example : (sha256tAlg [0x61]).finish ([[1], [2, 3]].foldl (sha256tAlg [0x61]).input (sha256tAlg [0x61]).new) =
    Sha2.sha256 (Sha2.sha256 [0x61] ++ Sha2.sha256 [0x61] ++ [1, 2, 3]) := by decide +kernel
example : hmacKey Sha2.sha256 64 [1] = 1 :: List.replicate 63 0 := by decide +kernel

end Hashes
end Btc
