import Verif.Props.C135
import Verif.Props.C75
/-!
# C136: what is paid to the text of an address can be spent exactly as the maker of the address meant

The maker builds the address and writes it down; the payer parses the text and pays to the output script.  Verification is `verify` of C129.
-/
namespace Btc
namespace Scr
namespace Core

section
open SignTx Crypto
open Taproot (Hash)
open Classical
open Addr (Address KnownHrp)

variable {S : Secp} {D : Der} {H : Bytes → Hash} {H160 : Bytes → Arr 20} {C : Curve S D} {tx : Tx} {spent : List TxOut} {i : Nat}

/-- Who parses the text of an address pays to that address. -/
theorem paid (sum : Bytes → Arr 32) {u : Bool} {a b : Address} {t : Bytes} (hv : a.Valid) (ht : a.display sum u = some t)
    (hp : Address.parse sum t = .ok b) : b = a := by
  have := (Addr.C75_parse sum t a).2 ⟨hv, u, (Addr.C75_display sum u a hv t).1 ht⟩
  rw [hp] at this
  exact Except.ok.inj this

/-- The address of a witness script. -/
theorem C136_p2wsh (other : UInt8 → List Bytes → Option (List Bytes)) (lock : UInt8 → List Bytes → Bool) (sum : Bytes → Arr 32) (u : Bool) (hrp : KnownHrp)
    (a b : Address) (t s : Bytes) (ha : Address.p2wsh H s hrp = some a) (ht : a.display sum u = some t) (hp : Address.parse sum t = .ok b)
    (txin : TxIn) (own : TxOut) (hi : tx.inputs[i]? = some txin) (ho : spent[i]? = some own) (he : own.spk = b.scriptPubkey) :
    verify H H160 C other lock tx spent i = true ↔ txin.scriptSig = [] ∧ castBool (H s).1 = true ∧ ∃ items script, txin.witness.toVec = some (items ++ [script]) ∧
      H script = H s ∧ script.length ≤ 10000 ∧ (∀ x ∈ items, x.length ≤ 520) ∧
      eval .legacy (std false true H160 (fun pk sig => decide (EcdsaOk C (v0Digest H tx i txin own script) pk sig)) other lock) script items.reverse = true := by
  unfold Address.p2wsh at ha
  split at ha
  · cases ha
  · rename_i hs
    cases ha
    rw [paid sum ((Addr.C74_constructors H160 H .main hrp).2.2.2.2.1 (H s)).1 ht hp] at he
    refine C134_p2wsh other lock txin own hi ho s ?_
    unfold toP2wsh
    rw [if_neg hs, he]
    rfl

/-- The address of a witness script in P2SH; the spender uses the script signature of `p2sh_p2wsh`. -/
theorem C136_p2shwsh (other : UInt8 → List Bytes → Option (List Bytes)) (lock : UInt8 → List Bytes → Bool) (sum : Bytes → Arr 32) (u : Bool) (n : NetworkKind)
    (a b : Address) (t s : Bytes) (ha : Address.p2shwsh H160 H s n = some a) (ht : a.display sum u = some t) (hp : Address.parse sum t = .ok b)
    (txin : TxIn) (own : TxOut) (hi : tx.inputs[i]? = some txin) (ho : spent[i]? = some own) (he : own.spk = b.scriptPubkey)
    (hsig : p2shP2wsh H s = some txin.scriptSig) :
    verify H H160 C other lock tx spent i = true ↔ castBool (H s).1 = true ∧ ∃ items script, txin.witness.toVec = some (items ++ [script]) ∧
      H script = H s ∧ script.length ≤ 10000 ∧ (∀ x ∈ items, x.length ≤ 520) ∧
      eval .legacy (std false true H160 (fun pk sig => decide (EcdsaOk C (v0Digest H tx i txin own script) pk sig)) other lock) script items.reverse = true := by
  unfold Address.p2shwsh at ha
  split at ha
  · cases ha
  · rename_i hs
    unfold Address.ofRedeemScript at ha
    split at ha
    · cases ha
    · rename_i hs2
      cases ha
      rw [paid sum (by exact trivial) ht hp] at he
      refine C134_p2sh_p2wsh other lock txin own hi ho s ?_ hsig
      unfold toP2wsh
      rw [if_neg hs, Option.bind_some]
      unfold toP2sh
      rw [he]
      exact if_neg hs2

/-- The segwit address of a key. -/
theorem C136_p2wpkh (other : UInt8 → List Bytes → Option (List Bytes)) (lock : UInt8 → List Bytes → Bool) (sum : Bytes → Arr 32) (u : Bool) (hrp : KnownHrp)
    (b : Address) (t : Bytes) (k : FullPublicKey S) (ht : (Address.ofWpubkeyHash (H160 k.toBytes) hrp).display sum u = some t) (hp : Address.parse sum t = .ok b)
    (txin : TxIn) (own : TxOut) (hi : tx.inputs[i]? = some txin) (ho : spent[i]? = some own) (he : own.spk = b.scriptPubkey) :
    verify H H160 C other lock tx spent i = true ↔ txin.scriptSig = [] ∧ castBool (H160 k.toBytes).1 = true ∧ ∃ sig pk, txin.witness.toVec = some [sig, pk] ∧
      sig.length ≤ 520 ∧ pk.length ≤ 520 ∧ H160 pk = H160 k.toBytes ∧
      EcdsaOk C (v0Digest H tx i txin own ([0x76, 0xa9, 0x14] ++ (H160 k.toBytes).1 ++ [0x88, 0xac])) pk sig := by
  rw [paid sum ((Addr.C74_constructors H160 H .main hrp).2.1 _).1 ht hp] at he
  exact C129_p2wpkh other lock txin own hi ho _ he

/-- The address of a key in P2SH; the spender uses the script signature of `p2sh_p2wpkh`. -/
theorem C136_p2shwpkh (other : UInt8 → List Bytes → Option (List Bytes)) (lock : UInt8 → List Bytes → Bool) (sum : Bytes → Arr 32) (u : Bool) (n : NetworkKind)
    (a b : Address) (t : Bytes) (k : FullPublicKey S) (ha : Address.p2shwpkh H160 (H160 k.toBytes) n = some a) (ht : a.display sum u = some t)
    (hp : Address.parse sum t = .ok b) (txin : TxIn) (own : TxOut) (hi : tx.inputs[i]? = some txin) (ho : spent[i]? = some own)
    (he : own.spk = b.scriptPubkey) (hsig : txin.scriptSig = p2shP2wpkh (H160 k.toBytes)) :
    verify H H160 C other lock tx spent i = true ↔ castBool (H160 k.toBytes).1 = true ∧ ∃ sig pk, txin.witness.toVec = some [sig, pk] ∧
      sig.length ≤ 520 ∧ pk.length ≤ 520 ∧ H160 pk = H160 k.toBytes ∧
      EcdsaOk C (v0Digest H tx i txin own ([0x76, 0xa9, 0x14] ++ (H160 k.toBytes).1 ++ [0x88, 0xac])) pk sig := by
  unfold Address.p2shwpkh Address.ofRedeemScript at ha
  split at ha
  · cases ha
  · rename_i hs
    cases ha
    rw [paid sum (by exact trivial) ht hp] at he
    refine C134_p2sh_p2wpkh other lock txin own hi ho _ ?_ hsig
    unfold toP2sh
    rw [he]
    exact if_neg hs

/-- The legacy address of a key, spent with a script signature that pushes `items`. -/
theorem C136_p2pkh (other : UInt8 → List Bytes → Option (List Bytes)) (lock : UInt8 → List Bytes → Bool) (sum : Bytes → Arr 32) (u : Bool) (n : NetworkKind)
    (b : Address) (t : Bytes) (k : LegacyPublicKey S) (ht : (Address.p2pkh (H160 k.serialize) n).display sum u = some t) (hp : Address.parse sum t = .ok b)
    (txin : TxIn) (own : TxOut) (hi : tx.inputs[i]? = some txin) (ho : spent[i]? = some own) (he : own.spk = b.scriptPubkey)
    (items : List Bytes) (hd : ∀ d ∈ items, d.length ≤ 520) (hn : items.length ≤ 998)
    (hl : txin.scriptSig.length ≤ 10000) (hsig : txin.scriptSig = items.foldl pushSlice []) :
    verify H H160 C other lock tx spent i = true ↔ txin.witness.toVec = some [] ∧ ∃ rest sig pk, items = rest ++ [sig, pk] ∧ H160 pk = H160 k.serialize ∧
      EcdsaOk C (legacyDigest H tx i own.spk) pk sig := by
  rw [paid sum (by exact trivial) ht hp] at he
  exact C135_p2pkh other lock txin own hi ho items hd hn hl hsig _ he

/-- The address of a redeem script, spent with a script signature that pushes `items`. -/
theorem C136_p2sh (other : UInt8 → List Bytes → Option (List Bytes)) (lock : UInt8 → List Bytes → Bool) (sum : Bytes → Arr 32) (u : Bool) (n : NetworkKind)
    (a b : Address) (t r : Bytes) (ha : Address.ofRedeemScript H160 r n = some a) (ht : a.display sum u = some t) (hp : Address.parse sum t = .ok b)
    (txin : TxIn) (own : TxOut) (hi : tx.inputs[i]? = some txin) (ho : spent[i]? = some own) (he : own.spk = b.scriptPubkey)
    (items : List Bytes) (hd : ∀ d ∈ items, d.length ≤ 520) (hn : items.length ≤ 999)
    (hl : txin.scriptSig.length ≤ 10000) (hsig : txin.scriptSig = items.foldl pushSlice [])
    (hr : ∀ x, items.getLast? = some x → witnessVersion x = none) :
    verify H H160 C other lock tx spent i = true ↔ txin.witness.toVec = some [] ∧ ∃ rest redeem, items = rest ++ [redeem] ∧ H160 redeem = H160 r ∧
      eval .legacy (std false false H160 (fun pk sig => decide (EcdsaOk C (legacyDigest H tx i redeem) pk sig)) other lock) redeem rest.reverse = true := by
  unfold Address.ofRedeemScript at ha
  split at ha
  · cases ha
  · rename_i hs
    cases ha
    rw [paid sum (by exact trivial) ht hp] at he
    refine C135_p2sh other lock txin own hi ho items hd hn hl hsig r ?_ hr
    unfold toP2sh
    rw [he]
    exact if_neg hs

/-- The anchor address: any witness will do. -/
theorem C136_p2a (other : UInt8 → List Bytes → Option (List Bytes)) (lock : UInt8 → List Bytes → Bool) (sum : Bytes → Arr 32) (u : Bool) (hrp : KnownHrp)
    (b : Address) (t : Bytes) (ht : (Address.p2a hrp).display sum u = some t) (hp : Address.parse sum t = .ok b)
    (txin : TxIn) (own : TxOut) (hi : tx.inputs[i]? = some txin) (ho : spent[i]? = some own) (he : own.spk = b.scriptPubkey) :
    verify H H160 C other lock tx spent i = true ↔ txin.scriptSig = [] ∧ ∃ stack, txin.witness.toVec = some stack := by
  rw [paid sum (Addr.C74_constructors H160 H .main hrp).2.2.2.2.2.2.2.1 ht hp] at he
  exact C134_p2a other lock txin own hi ho he

/-- The taproot address of an internal key with a tree of scripts: spent by a signature for the tweaked key, or with a script of the tree. -/
theorem C136_p2tr (other : UInt8 → List Bytes → Option (List Bytes)) (lock : UInt8 → List Bytes → Bool) (sum : Bytes → Arr 32) (u : Bool) (hrp : KnownHrp)
    (k : Taproot.XOnly C.taproot) (tree : Taproot.Tree) (hh : tree.height ≤ 128) (hq : Taproot.tapTweak H k (some (tree.root H)) ≠ none) :
    ∃ st info, Taproot.runCalls H [] (tree.dfs 0) = .ok st ∧ Taproot.finalize H st k = some (.ok info) ∧
      ∀ t b, (Address.p2trTweaked (C.serX info.outputKey.inner) hrp).display sum u = some t → Address.parse sum t = .ok b →
        (∀ (tx : Tx) (spent : List TxOut) (i : Nat) txin own sig, tx.inputs[i]? = some txin → spent[i]? = some own → own.spk = b.scriptPubkey →
          txin.witness.toVec = some [sig] →
          (verify H H160 C other lock tx spent i = true ↔ txin.scriptSig = [] ∧ castBool (C.serX info.outputKey.inner).1 = true ∧
            SchnorrOk C (tapDigest H tx i txin spent own none) (C.serX info.outputKey.inner) sig)) ∧
        ∀ s v, (s, v) ∈ tree.scripts → ∃ cb, Taproot.controlBlock info (s, v) = some (some cb) ∧
          ∀ (tx : Tx) (spent : List TxOut) (i : Nat) txin own items, tx.inputs[i]? = some txin → spent[i]? = some own → own.spk = b.scriptPubkey →
            txin.witness.toVec = some (items ++ [s, cb.serialize]) →
            (verify H H160 C other lock tx spent i = true ↔ txin.scriptSig = [] ∧ castBool (C.serX info.outputKey.inner).1 = true ∧
              (v = .tapScript → items.length ≤ 1000 ∧ (∀ x ∈ items, x.length ≤ 520) ∧
                eval .tapScript (std true true H160 (schnorr C (tapDigest H tx i txin spent own (some (Taproot.leafHash H s .tapScript, 0xFFFFFFFF))))
                  other lock) s items.reverse = true)) := by
  obtain ⟨st, info, h1, h2, h3⟩ := C134_script_path (H160 := H160) other lock k tree hh hq
  refine ⟨st, info, h1, h2, fun t b ht hp => ?_⟩
  have hb := paid sum ((Addr.C74_constructors H160 H .main hrp).2.2.2.2.2.2.1 _).1 ht hp
  subst hb
  refine ⟨fun tx spent i txin own sig hi ho he hw => C129_p2tr_key other lock txin own hi ho _ he sig hw, fun s v hs => ?_⟩
  obtain ⟨cb, c1, c2⟩ := h3 s v hs
  exact ⟨cb, c1, fun tx spent i txin own items hi ho he hw => c2 tx spent i txin own items hi ho he hw⟩

/-- Every address the library makes has a text that it parses. -/
example (sum : Bytes → Arr 32) (u : Bool) (s : Bytes) (hs : s.length ≤ 10000) : ∃ a t b, Address.p2wsh wH s .mainnet = some a ∧ a.display sum u = some t ∧
    Address.parse sum t = .ok b := by
  obtain ⟨t, h1, h2⟩ := Addr.C75_round_trip sum u (.ofWscriptHash (wH s) .mainnet) ((Addr.C74_constructors toyH160 wH .main .mainnet).2.2.2.2.1 (wH s)).1
  exact ⟨_, t, _, by rw [(Addr.C74_constructors toyH160 wH .main .mainnet).2.2.2.1, if_pos hs], h1, h2⟩
/-- Who parses the anchor address pays to an output that anyone can spend. -/
example (sum : Bytes → Arr 32) (t : Bytes) (b : Address) (ht : (Address.p2a .mainnet).display sum true = some t) (hp : Address.parse sum t = .ok b) :
    verify wH toyH160 toyCurve (fun _ _ => none) (fun _ _ => false) (wTx [] [[1], [2, 3]]) [wOut b.scriptPubkey] 0 = true := by
  rw [C136_p2a _ _ sum true .mainnet b t ht hp _ _ rfl rfl rfl]
  exact ⟨rfl, [[1], [2, 3]], by decide +kernel⟩
/-- The other kinds of addresses: each has a text, and the payer pays to the expected output script. -/
example (sum : Bytes → Arr 32) (u : Bool) : (∃ a t, Address.p2shwsh toyH160 wH [0x52] .test = some a ∧ a.display sum u = some t ∧ Address.parse sum t = .ok a) ∧
    (∃ a t, Address.p2shwpkh toyH160 (toyH160 [2]) .test = some a ∧ a.display sum u = some t ∧ Address.parse sum t = .ok a) ∧
    (∃ a t, Address.ofRedeemScript toyH160 [0x53, 0x87] .main = some a ∧ a.display sum u = some t ∧ Address.parse sum t = .ok a) ∧
    (∃ t, (Address.p2pkh (toyH160 [2]) .main).display sum u = some t ∧ Address.parse sum t = .ok (.p2pkh (toyH160 [2]) .main)) := by
  refine ⟨?_, ?_, ?_, Addr.C75_round_trip sum u _ trivial⟩
  · obtain ⟨t, h1, h2⟩ := Addr.C75_round_trip sum u (.p2sh (toyH160 (newP2wsh (wH [0x52]))) .test) trivial
    exact ⟨_, t, by decide +kernel, h1, h2⟩
  · obtain ⟨t, h1, h2⟩ := Addr.C75_round_trip sum u (.p2sh (toyH160 (newP2wpkh (toyH160 [2]))) .test) trivial
    exact ⟨_, t, by decide +kernel, h1, h2⟩
  · obtain ⟨t, h1, h2⟩ := Addr.C75_round_trip sum u (.p2sh (toyH160 [0x53, 0x87]) .main) trivial
    exact ⟨_, t, by decide +kernel, h1, h2⟩

end

end Core
end Scr
end Btc
