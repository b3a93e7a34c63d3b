import Verif.Proof.Model
/-!
# CBOR byte strings and the COSE signature structure (specification)

From RFC 8949 section 3 (major type 2, definite length) and RFC 9052 section 4.4.  Independent of the
model.
-/

namespace VC.Cwt.Spec

open VC.Proof (Bytes)

/-- `a` is `n` in network byte order. -/
inductive BE : Bytes → Nat → Prop
  | nil : BE [] 0
  | snoc {a : Bytes} {n : Nat} (b : UInt8) : BE a n → BE (a ++ [b]) (n * 256 + b.toNat)

/-- `d` is an encoding of the byte string `s`: the length in the initial byte if below 24, or in the
1, 2, 4 or 8 bytes after it. -/
inductive BstrOf : Bytes → Bytes → Prop
  | short (s : Bytes) : s.length < 24 → BstrOf (UInt8.ofNat (64 + s.length) :: s) s
  | long (i : Nat) (a s : Bytes) : i < 4 → a.length = 2 ^ i → BE a s.length →
      BstrOf (UInt8.ofNat (88 + i) :: (a ++ s)) s

/-- `d` is the preferred (shortest) encoding of `s`. -/
def Shortest (d s : Bytes) : Prop := BstrOf d s ∧ ∀ d', BstrOf d' s → d.length ≤ d'.length

/-- An optional payload: null when detached. -/
inductive PayloadOf : Bytes → Option Bytes → Prop
  | null : PayloadOf [0xf6] none
  | bytes {d s : Bytes} : Shortest d s → PayloadOf d (some s)

/-- The `Sig_structure` of RFC 9052 section 4.4 for COSE_Sign1: `["Signature1", body_protected,
external_aad, payload]`, in deterministic encoding, with empty external data. -/
def SigStructure (msg : Bytes) (prot : Bytes) (payload : Option Bytes) : Prop :=
  ∃ d q, Shortest d prot ∧ PayloadOf q payload ∧
    msg = [0x84] ++ (0x6a :: "Signature1".toUTF8.data.toList) ++ d ++ [0x40] ++ q

end VC.Cwt.Spec
