import Verif.Cbor.Model

/-!
# Specification of CTAP2 canonical CBOR, independent of the reader and writer

`enc` is the canonical encoding of RFC 8949 section 4.2.1 / CTAP2 section 8; `WF` says which values the
Rust types can hold; `depth` is the nesting depth.
-/
namespace Verif.Cbor

/-- Shortest-form head of RFC 8949 section 3: major type and argument. -/
def head (major arg : Nat) : Bytes :=
  if arg < 24 then [UInt8.ofNat (major * 32 + arg)]
  else if arg < 2 ^ 8 then [UInt8.ofNat (major * 32 + 24), UInt8.ofNat arg]
  else if arg < 2 ^ 16 then
    [UInt8.ofNat (major * 32 + 25), UInt8.ofNat (arg / 2 ^ 8 % 256), UInt8.ofNat (arg % 256)]
  else if arg < 2 ^ 32 then
    [UInt8.ofNat (major * 32 + 26), UInt8.ofNat (arg / 2 ^ 24 % 256), UInt8.ofNat (arg / 2 ^ 16 % 256),
      UInt8.ofNat (arg / 2 ^ 8 % 256), UInt8.ofNat (arg % 256)]
  else
    [UInt8.ofNat (major * 32 + 27), UInt8.ofNat (arg / 2 ^ 56 % 256), UInt8.ofNat (arg / 2 ^ 48 % 256),
      UInt8.ofNat (arg / 2 ^ 40 % 256), UInt8.ofNat (arg / 2 ^ 32 % 256), UInt8.ofNat (arg / 2 ^ 24 % 256),
      UInt8.ofNat (arg / 2 ^ 16 % 256), UInt8.ofNat (arg / 2 ^ 8 % 256), UInt8.ofNat (arg % 256)]

mutual
/-- Canonical encoding. -/
def Value.enc : Value → Bytes
  | .unsigned n => head 0 n
  | .negative i => head 1 (-1 - i).toNat
  | .bytes b => head 2 b.length ++ b
  | .text b => head 3 b.length ++ b
  | .array l => head 4 l.length ++ Value.encList l
  | .map m => head 5 m.length ++ Value.encMap m
  | .tag n v => head 6 n ++ v.enc
  | .simple s => head 7 s.toNat
def Value.encList : List Value → Bytes
  | [] => []
  | x :: xs => x.enc ++ Value.encList xs
def Value.encMap : List (Value × Value) → Bytes
  | [] => []
  | (k, v) :: xs => k.enc ++ v.enc ++ Value.encMap xs
end

mutual
/-- Nesting depth: scalars and empty containers have depth 0. -/
def Value.depth : Value → Nat
  | .array l => Value.depthList l
  | .map m => Value.depthMap m
  | .tag _ v => v.depth + 1
  | _ => 0
def Value.depthList : List Value → Nat
  | [] => 0
  | x :: xs => max (x.depth + 1) (Value.depthList xs)
def Value.depthMap : List (Value × Value) → Nat
  | [] => 0
  | (k, v) :: xs => max (max (k.depth + 1) (v.depth + 1)) (Value.depthMap xs)
end

/-- Strict bytewise lexicographic order on byte strings. -/
def LexLt : Bytes → Bytes → Prop
  | _, [] => False
  | [], _ :: _ => True
  | a :: s, b :: t => a.toNat < b.toNat ∨ (a.toNat = b.toNat ∧ LexLt s t)

mutual
/-- The values of the Rust type on a target with `w`-bit `usize`: 64-bit integers, byte and text strings and
containers of representable length, text is UTF-8, and map entries strictly sorted by encoded key (the
type's invariant, established by `Value::map`). -/
def Value.WF (w : Nat) : Value → Prop
  | .unsigned n => n < 2 ^ 64
  | .negative i => -2 ^ 63 ≤ i ∧ i < 0
  | .bytes b => b.length < 2 ^ w
  | .text b => b.length < 2 ^ w ∧ ∃ cs : List Nat, (∀ c ∈ cs, Utf8.IsScalar c) ∧ b = cs.flatMap Utf8.encodeChar
  | .array l => l.length < 2 ^ 64 ∧ Value.WFList w l
  | .map m => m.length < 2 ^ 64 ∧ Value.WFMap w m ∧ m.Pairwise (fun a b => LexLt a.1.enc b.1.enc)
  | .tag n v => n < 2 ^ 64 ∧ v.WF w
  | .simple _ => True
def Value.WFList (w : Nat) : List Value → Prop
  | [] => True
  | x :: xs => x.WF w ∧ Value.WFList w xs
def Value.WFMap (w : Nat) : List (Value × Value) → Prop
  | [] => True
  | (k, v) :: xs => k.WF w ∧ v.WF w ∧ Value.WFMap w xs
end

/-- The nesting limit `d` (none: unlimited) allows depth `n`. -/
def Depth.allows : Depth → Nat → Prop
  | none, _ => True
  | some d, n => (n : Int) ≤ d

end Verif.Cbor
