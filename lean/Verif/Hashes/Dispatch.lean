import Verif.Hashes.Simd
import Verif.Hashes.ShaNi
import Verif.Primitives.Merkle
/-!
# The choice of a SHA-256 back end at run time

`hashes/src/sha256/crypto/mod.rs` 305-478, `hashes/src/sha256d/mod.rs` 20-22, and the callers: the engine of SHA-256 and the merkle
roots (primitives/src/merkle_tree.rs 118-156).
-/
namespace Btc
namespace Dispatch
open Sha2 (St comp256 iv256)
open Hashes (Eng splice incompleteLen fillFrom fillTo)

/-- What the compiler and the processor say: the two cargo features, the target, what `is_x86_feature_detected!` and
`is_aarch64_feature_detected!` of the standard library answer, and what the `cpufeatures` crate answers for the four sets of
instructions it is asked about (crypto/mod.rs 28-58). -/
structure Cpu where
  std : Bool
  cpufeatures : Bool
  x86 : Bool
  aarch64 : Bool
  sse41 : Bool
  sha : Bool
  sse2 : Bool
  ssse3 : Bool
  avx : Bool
  avx2 : Bool
  sha2 : Bool
  cpuidSha : Bool
  cpuidSha2 : Bool
  cpuidAvx2 : Bool
  cpuidSse41 : Bool

/-- `HashEngine::process_blocks` (crypto/mod.rs 306-347). -/
def processBlocks (c : Cpu) (st : St 32) (blocks : Bytes) : St 32 :=
  if c.std && c.x86 && (c.sse41 && c.sha && c.sse2 && c.ssse3) then ShaNi.x86ProcessBlocks st blocks
  else if c.cpufeatures && c.x86 && c.cpuidSha then ShaNi.x86ProcessBlocks st blocks
  else if c.std && c.aarch64 && c.sha2 then ShaNi.armProcessBlocks st blocks
  else if c.cpufeatures && c.aarch64 && c.cpuidSha2 then ShaNi.armProcessBlocks st blocks
  else Hashes.processBlocks 64 comp256 st blocks

/-- `while count - i >= n { .. i += n }`: `f` gets the slices of the outputs and of the inputs. -/
def ways (n : Nat) (f : List Bytes → List Bytes → List Bytes) (inputs : List Bytes) : Nat → List Bytes × Nat → List Bytes × Nat
  | 0, s => s
  | fuel + 1, (outs, i) =>
    if inputs.length - i ≥ n then
      ways n f inputs fuel (outs.take i ++ f ((outs.drop i).take n) ((inputs.drop i).take n) ++ outs.drop (i + n), i + n)
    else (outs, i)
def waysIf (b : Bool) (n : Nat) (f : List Bytes → List Bytes → List Bytes) (inputs : List Bytes) (s : List Bytes × Nat) : List Bytes × Nat :=
  if b then ways n f inputs inputs.length s else s

/-- The back ends on slices of the arrays; `sha256d_64_2way` writes into the buffers. -/
def shani (outs inps : List Bytes) : List Bytes :=
  let r := ShaNi.x86Sha256d64 (outs.getD 0 []) (outs.getD 1 []) (inps.getD 0 []) (inps.getD 1 [])
  [r.1, r.2]
def arm (outs inps : List Bytes) : List Bytes :=
  let r := ShaNi.armSha256d64 (outs.getD 0 []) (outs.getD 1 []) (inps.getD 0 []) (inps.getD 1 [])
  [r.1, r.2]
def avx2 (_ inps : List Bytes) : List Bytes := Simd.sha256d64Ways 2 inps
def sse41 (_ inps : List Bytes) : List Bytes := Simd.sha256d64Ways 1 inps
def software (_ inps : List Bytes) : List Bytes := inps.map Sha2.sha256d64

/-- `HashEngine::sha256d_64` (crypto/mod.rs 349-478), `sha256d::Hash::hash_64_many` (sha256d/mod.rs 20-22); `none` is the panic of the
`assert_eq!`. The last loop goes one by one. -/
def hash64Many (c : Cpu) (outputs inputs : List Bytes) : Option (List Bytes) :=
  if outputs.length ≠ inputs.length then none
  else
    let s := (outputs, 0)
    let s := waysIf (c.std && c.x86 && (c.sse41 && c.sha && c.sse2 && c.ssse3)) 2 shani inputs s
    let s := waysIf (c.cpufeatures && c.x86 && c.cpuidSha) 2 shani inputs s
    let s := waysIf (c.std && c.aarch64 && c.sha2) 2 arm inputs s
    let s := waysIf (c.cpufeatures && c.aarch64 && c.cpuidSha2) 2 arm inputs s
    let s := waysIf (c.std && c.x86 && (c.avx && c.avx2)) 8 avx2 inputs s
    let s := waysIf (c.cpufeatures && c.x86 && c.cpuidAvx2) 8 avx2 inputs s
    let s := waysIf (c.std && c.x86 && (c.sse41 && c.sse2 && c.ssse3)) 4 sse41 inputs s
    let s := waysIf (c.cpufeatures && c.x86 && c.cpuidSse41) 4 sse41 inputs s
    some (ways 1 software inputs inputs.length s).1

/-- `impl_engine_input!` (internal_macros.rs 203-230) for SHA-256, with the back end that is chosen; see `Hashes.Eng.input`. -/
def input (c : Cpu) (e : Eng (St 32)) (inp : Bytes) : Eng (St 32) :=
  let i := incompleteLen 64 e
  let n := (e.bytesHashed + inp.length) % 2 ^ 64
  if i + inp.length < 64 then { e with buffer := splice e.buffer i inp, bytesHashed := n }
  else
    let (buf, h, inp) :=
      if i > 0 then
        let needed := 64 - i
        let buf := splice e.buffer i (inp.take needed)
        (buf, processBlocks c e.h buf, inp.drop needed)
      else (e.buffer, e.h, inp)
    let full := inp.length / 64 * 64
    let h := if full > 0 then processBlocks c h (inp.take full) else h
    ⟨splice buf 0 (inp.drop full), h, n⟩

/-- `sha256::Hash::from_engine` (sha256/mod.rs 33-51) with the back end that is chosen; see `Hashes.Eng.finish`. -/
def finish (c : Cpu) (e : Eng (St 32)) : Bytes :=
  let i := incompleteLen 64 e
  let buf := splice e.buffer i [0x80]
  let buf := fillFrom buf (i + 1)
  let (buf, h) := if i ≥ 64 - 8 then (fillTo buf (64 - 8), processBlocks c e.h buf) else (buf, e.h)
  let buf := splice buf (64 - 8) (beBytes 8 ((8 * e.bytesHashed) % 2 ^ 64))
  (processBlocks c h buf).bytes 4

/-- The loop of `calculate_root_batched` (merkle_tree.rs 125-153). The inner option is that of the code, the outer is a panic. -/
def rootLoop (c : Cpu) : Nat → List Bytes → Option (Option (List Bytes))
  | 0, nodes => some (some nodes)
  | fuel + 1, nodes =>
    if nodes.length > 1 then
      if (Merkle.chunks2 (fun a b => decide (a = b)) nodes).any id then some none
      else
        let nodes := Merkle.pad nodes
        let inputs := Merkle.chunks2 (fun a b => splice (splice (List.replicate 64 0) 0 a) 32 b) nodes
        (hash64Many c (List.replicate (nodes.length / 2) (List.replicate 32 0)) inputs).bind (rootLoop c fuel)
    else some (some nodes)
/-- `calculate_root_batched` (merkle_tree.rs 118-156). -/
def rootBatched (c : Cpu) (nodes : List Bytes) : Option (Option Bytes) :=
  if nodes.isEmpty then some none
  else (rootLoop c nodes.length nodes).map fun r => r.bind (·.head?)

end Dispatch
end Btc
