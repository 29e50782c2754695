import Verif.Bitcoin.Wallet
import Verif.Props.C73
import Verif.Props.C75
import Verif.Props.C98
/-!
# C99: a wallet can spend what its watch-only copy receives
-/
namespace Btc
namespace Wallet

open Crypto
open Bip32 (Xpriv Xpub Seed ChildNumber)
open Taproot (Hash)
open SignTx (Lock)
open Pow (Network)

variable {S : Secp} {D : Der}

theorem okOf_andThen {α : Type} (o : Option (Except Bip32.DeriveErr α)) (f : α → Option (Except Bip32.DeriveErr α)) :
    okOf (Bip32.andThen o f) = (okOf o).bind fun k => okOf (f k) := by
  rcases o with - | (e | k) <;> rfl

theorem okOf_some {α ε : Type} (o : Option (Except ε α)) (k : α) (h : okOf o = some k) : o = some (.ok k) := by
  rcases o with - | (e | k') <;> first | cases h; rfl | cases h

theorem keyAt_eq (n : NetworkKind) (seed : Seed) (p : List ChildNumber) :
    keyAt S n seed p = (Xpriv.newMaster n seed).bind fun m => okOf (m.deriveFromPath S p) := by
  unfold keyAt; exact Eq.refl _

theorem keyAt_append (n : NetworkKind) (seed : Seed) (p q : List ChildNumber) :
    keyAt S n seed (p ++ q) = (keyAt S n seed p).bind fun k => okOf (k.deriveFromPath S q) := by
  rw [keyAt_eq, keyAt_eq]
  generalize Xpriv.newMaster n seed = o
  cases o with
  | none => rfl
  | some m =>
    rw [Option.bind_some, Option.bind_some, (Bip32.C73_path (S := S) m (Xpub.fromXpriv S m) ⟨0⟩ p q).2.2.1, okOf_andThen]

/-- The text exported is that of the public half of the account key, and is read back. -/
theorem export_some (B : Bytes → Arr 32) (n : NetworkKind) (seed : Seed) (account : List ChildNumber) (t : Bytes)
    (h : exportXpub S B n seed account = some t) : ∃ k, keyAt S n seed account = some k ∧ Xpub.parse B t = .ok (Xpub.fromXpriv S k) := by
  unfold exportXpub at h
  obtain ⟨k, hk, hx⟩ := Option.bind_eq_some_iff.mp h
  refine ⟨k, hk, ?_⟩
  rw [keyAt_eq] at hk
  obtain ⟨m, hm, hd⟩ := Option.bind_eq_some_iff.mp hk
  obtain ⟨-, -, -, t', h1, h2⟩ := Bip32.C73_derived_roundtrip B n seed m k account hm (okOf_some _ _ hd)
  rw [hx] at h1
  cases Option.some.inj h1
  exact h2

/-- The address of the public key is the address of the coin. -/
theorem address_eq (H : Bytes → Hash) (H160 : Bytes → Arr 20) (C : Curve S D) (n : Network) (k : Xpriv) (c : Coin) :
    addressOf H H160 C n (Xpub.fromXpriv S k) c.kind = (lockOf C k c).address H H160 (Net.kindOf n) (.fromNetwork n) := by
  unfold lockOf
  cases c.kind with
  | p2pkh => rfl
  | p2wpkh => rfl
  | p2shP2wpkh => rfl
  | p2tr =>
    show (Taproot.tapTweak H (XOnlyKey.fromKeypair C (toKeypair k)) none).map _ = (SignTx.spendInfo H (XOnlyKey.fromKeypair C (toKeypair k)) none).map _
    have : SignTx.spendInfo H (XOnlyKey.fromKeypair C (toKeypair k)) none = Taproot.newKeySpend H (XOnlyKey.fromKeypair C (toKeypair k)) none := by
      unfold SignTx.spendInfo Taproot.finalize
      generalize Taproot.newKeySpend H (XOnlyKey.fromKeypair C (toKeypair k)) none = o
      cases o <;> rfl
    rw [this]
    unfold Taproot.newKeySpend
    cases Taproot.tapTweak H (XOnlyKey.fromKeypair C (toKeypair k)) none <;> rfl

/-- The addresses are valid and of the network. -/
theorem address_ok (H : Bytes → Hash) (H160 : Bytes → Arr 20) (C : Curve S D) (n : Network) (k : Xpub S) (kind : Kind) (a : Addr.Address)
    (h : addressOf H H160 C n k kind = some a) : a.Valid ∧ Addr.Uses n a := by
  have hc := Addr.C74_constructors H160 H (Net.kindOf n) (.fromNetwork n)
  cases kind with
  | p2pkh => cases h; exact ⟨trivial, by cases n <;> rfl⟩
  | p2wpkh => cases h; exact ⟨(hc.2.1 _).1, by cases n <;> rfl⟩
  | p2shP2wpkh =>
    simp only [addressOf, hc.2.2.1] at h
    cases h; exact ⟨trivial, by cases n <;> rfl⟩
  | p2tr =>
    simp only [addressOf] at h
    obtain ⟨q, -, rfl⟩ := Option.map_eq_some_iff.mp h
    exact ⟨(hc.2.2.2.2.2.2.1 _).1, by cases n <;> rfl⟩

theorem okOf_map {α β ε : Type} (o : Option (Except ε α)) (f : α → β) : okOf (o.map (·.map f)) = (okOf o).map f := by
  rcases o with - | (e | k) <;> rfl

theorem receive_eq (H : Bytes → Hash) (H160 : Bytes → Arr 20) (B : Bytes → Arr 32) (C : Curve S D) (n : Network) (t : Bytes) (c : Coin) (k : Xpub S)
    (h : Xpub.parse B t = .ok k) :
    receive H H160 B C n t c = (okOf (k.deriveFromPath c.path)).bind fun k => (addressOf H H160 C n k c.kind).bind fun a => a.display B false := by
  unfold receive
  simp only [h]

/-- What the watch-only copy shows for a coin is the text of the address of the key the wallet has for it; below a hardened step it shows
nothing.  Whoever is given the text pays to the script of that address. -/
theorem C99_watch (H : Bytes → Hash) (H160 : Bytes → Arr 20) (B : Bytes → Arr 32) (C : Curve S D) (n : Network) (seed : Seed)
    (account : List ChildNumber) (t : Bytes) (ht : exportXpub S B (Net.kindOf n) seed account = some t) (c : Coin) :
    ((∀ i ∈ c.path, i.toRaw.toNat < 2 ^ 31) →
      receive H H160 B C n t c =
        (keyAt S (Net.kindOf n) seed (account ++ c.path)).bind fun k =>
          ((lockOf C k c).address H H160 (Net.kindOf n) (.fromNetwork n)).bind fun a => a.display B false) ∧
    ((∃ i ∈ c.path, 2 ^ 31 ≤ i.toRaw.toNat) → receive H H160 B C n t c = none) ∧
    (∀ text, receive H H160 B C n t c = some text → ∃ k a, keyAt S (Net.kindOf n) seed (account ++ c.path) = some k ∧
      (lockOf C k c).address H H160 (Net.kindOf n) (.fromNetwork n) = some a ∧ a.display B false = some text ∧
      payTo B n text = some a.scriptPubkey) := by
  obtain ⟨k0, hk0, hp⟩ := export_some B _ seed account t ht
  have hnormal : (∀ i ∈ c.path, i.toRaw.toNat < 2 ^ 31) →
      receive H H160 B C n t c =
        (keyAt S (Net.kindOf n) seed (account ++ c.path)).bind fun k =>
          ((lockOf C k c).address H H160 (Net.kindOf n) (.fromNetwork n)).bind fun a => a.display B false := by
    intro hn
    rw [receive_eq H H160 B C n t c _ hp, keyAt_append, hk0, Option.bind_some, Bip32.C73_commutes_path S k0 c.path hn, okOf_map]
    generalize okOf (k0.deriveFromPath S c.path) = o
    cases o with
    | none => rfl
    | some k => rw [Option.map_some, Option.bind_some, Option.bind_some, address_eq]
  have hhard : (∃ i ∈ c.path, 2 ^ 31 ≤ i.toRaw.toNat) → receive H H160 B C n t c = none := by
    rintro ⟨i, hi, hlt⟩
    rw [receive_eq H H160 B C n t c _ hp]
    cases hd : okOf ((Xpub.fromXpriv S k0).deriveFromPath c.path) with
    | none => rfl
    | some k =>
      have := ((Bip32.C73_depth (S := S) c.path).2 _ _ (okOf_some _ _ hd)).2.2 i hi
      omega
  refine ⟨hnormal, hhard, fun text hr => ?_⟩
  have hn : ∀ i ∈ c.path, i.toRaw.toNat < 2 ^ 31 := by
    intro i hi
    refine Decidable.byContradiction fun h => ?_
    rw [hhard ⟨i, hi, by omega⟩] at hr
    cases hr
  rw [hnormal hn] at hr
  obtain ⟨k, h1, h2⟩ := Option.bind_eq_some_iff.mp hr
  obtain ⟨a, h3, h4⟩ := Option.bind_eq_some_iff.mp h2
  refine ⟨k, a, h1, h3, h4, ?_⟩
  have hok := address_ok H H160 C n (Xpub.fromXpriv S k) c.kind a ((address_eq H H160 C n k c).trans h3)
  have hparse : Addr.Address.parse B text = .ok a := (Addr.C75_parse B text a).2 ⟨hok.1, false, (Addr.C75_display B false a hok.1 text).1 h4⟩
  unfold payTo
  rw [hparse]
  simp only [(Addr.C75_require_network a n).1 hok.2]

/-- Coins received at addresses shown by the watch-only copy can be spent by the wallet, which has the seed alone: any transaction that spends
them is signed, nothing but script signatures and witnesses is added, and every input spends its output. -/
theorem C99_spend (H : Bytes → Hash) (H160 : Bytes → Arr 20) (B : Bytes → Arr 32) (C : Curve S D) (hD : ∀ s, D.serialize s ≠ []) (n : Network)
    (seed : Seed) (account : List ChildNumber) (t : Bytes) (ht : exportXpub S B (Net.kindOf n) seed account = some t) (coins : List Coin) (tx : Tx)
    (P : List TxOut) (hrecv : coins.map (fun c => (receive H H160 B C n t c).bind (payTo B n)) = P.map fun o => some o.spk)
    (hu : SignTx.Unsigned tx) (h32 : tx.inputs.length ≤ 2 ^ 32) (hl : P.length = tx.inputs.length)
    (hsingle : ∀ (i : Nat) (c : Coin), coins[i]? = some c → c.kind = .p2tr → c.tap = .single ∨ c.tap = .singleAcp → i < tx.outputs.length) :
    ∃ tx', spend H H160 C (Net.kindOf n) seed account coins tx P = some tx' ∧ Sighash.SameSigned tx' tx ∧
      (∀ i, i < tx.inputs.length → SignTx.Spends H H160 C tx' P i) ∧
      (Decodable tx → ∃ bs, Drains txEnc tx'.encoder bs ∧ txDec.decodeSlice bs = .ok tx') := by
  have hlocks : ∀ (coins : List Coin) (P : List TxOut), coins.map (fun c => (receive H H160 B C n t c).bind (payTo B n)) = P.map (fun o => some o.spk) →
      ∃ ls, locks C (Net.kindOf n) seed account coins = some ls ∧ SignTx.Owns H H160 (Net.kindOf n) (.fromNetwork n) P ls ∧
        ∀ (i : Nat) (l : Lock C), ls[i]? = some l → ∃ c k, coins[i]? = some c ∧ l = lockOf C k c := by
    intro coins
    induction coins with
    | nil =>
      intro P h
      cases P with
      | nil => exact ⟨[], rfl, rfl, fun i l e => by cases e⟩
      | cons o P => cases h
    | cons c cs ih =>
      intro P h
      cases P with
      | nil => cases h
      | cons o P =>
        simp only [List.map_cons, List.cons.injEq] at h
        obtain ⟨ls, a1, a2, a3⟩ := ih P h.2
        obtain ⟨text, b1, b2⟩ := Option.bind_eq_some_iff.mp h.1
        obtain ⟨k, a, c1, c2, -, c4⟩ := (C99_watch H H160 B C n seed account t ht c).2.2 text b1
        refine ⟨lockOf C k c :: ls, ?_, ?_, ?_⟩
        · simp only [locks, c1, a1, Option.map_some, Option.bind_some]
        · unfold SignTx.Owns at a2 ⊢
          rw [List.map_cons, List.map_cons, a2, c2, Option.map_some, ← c4, b2]
        · intro i l e
          cases i with
          | zero => cases e; exact ⟨c, k, rfl, rfl⟩
          | succ i => exact a3 i l e
  obtain ⟨ls, a1, a2, a3⟩ := hlocks coins P hrecv
  obtain ⟨tx', b1, b2, b3, b4, -⟩ := SignTx.C98_signed H H160 C _ _ hD tx P ls hu h32 hl a2 (fun i l e => by
    obtain ⟨c, k, c1, rfl⟩ := a3 i l e
    have := hsingle i c c1
    unfold lockOf
    cases hk : c.kind with
    | p2pkh => trivial
    | p2wpkh => trivial
    | p2shP2wpkh => trivial
    | p2tr => exact ⟨fun t e => by (cases e), fun h => this hk h⟩)
  exact ⟨tx', by unfold spend; rw [a1, Option.bind_some]; exact b1, b2, b3, b4⟩

/-! ### An example: the account 84h of the first seed of BIP-32 and a coin of each kind -/

def toyB : Bytes → Arr 32 := fun b => ⟨List.replicate 32 (UInt8.ofNat b.length), by simp⟩
def toyAccount : List ChildNumber := [⟨0x80000054⟩]
def toyCoins : List Coin :=
  [⟨.p2wpkh, [⟨0⟩], .all, .default⟩, ⟨.p2tr, [⟨7⟩], .all, .single⟩, ⟨.p2pkh, [], .noneAcp, .default⟩, ⟨.p2shP2wpkh, [⟨0x7fffffff⟩], .single, .all⟩]
def toyText : Bytes := (exportXpub Secp.toy toyB .test Bip32.seed1 toyAccount).getD []
def toyReceived : List (Option Bytes) := toyCoins.map fun c => (receive SignTx.toyH SignTx.toyH160 toyB toyCurve .signet toyText c).bind (payTo toyB .signet)
def toySpent : List TxOut := toyReceived.map fun o => ⟨⟨1000, by decide⟩, o.getD []⟩
def toyTx : Tx where
  version := 2
  lockTime := 0
  inputs := (List.range 4).map fun n => ⟨⟨five, UInt32.ofNat n⟩, [], 0xFFFFFFFD, Wit.empty⟩
  outputs := (List.range 2).map fun n => ⟨⟨1700, by decide⟩, [0x51, UInt8.ofNat n]⟩

example : exportXpub Secp.toy toyB (Net.kindOf .signet) Bip32.seed1 toyAccount = some toyText ∧ toyText.length = 111 := by decide +kernel
example : toyReceived = toySpent.map (fun o => some o.spk) ∧ toySpent.map (·.spk.length) = [22, 34, 25, 23] := by decide +kernel
example : SignTx.Unsigned toyTx ∧ toyTx.inputs.length ≤ 2 ^ 32 ∧ toySpent.length = toyTx.inputs.length := by decide +kernel
example : ∀ (i : Nat) (c : Coin), toyCoins[i]? = some c → c.kind = .p2tr → c.tap = .single ∨ c.tap = .singleAcp → i < toyTx.outputs.length := by
  intro i c h hk _
  match i, h with
  | 0, h => cases h; cases hk
  | 1, h => decide
  | 2, h => cases h; cases hk
  | 3, h => cases h; cases hk
  | n + 4, h => cases h
/-- Below a hardened step the watch-only copy has nothing to show, the wallet has a key. -/
example : receive SignTx.toyH SignTx.toyH160 toyB toyCurve .signet toyText ⟨.p2wpkh, [⟨0x80000000⟩], .all, .default⟩ = none ∧
    (keyAt Secp.toy .test Bip32.seed1 (toyAccount ++ [⟨0x80000000⟩])).isSome := by decide +kernel

end Wallet
end Btc
