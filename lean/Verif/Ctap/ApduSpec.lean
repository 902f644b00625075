import Verif.Ctap.U2f

/-!
# The layout of U2F request frames (ISO 7816-4 and FIDO U2F raw messages)
-/
namespace Verif.Ctap

/-- Big-endian number of two bytes. -/
def be2 (a b : UInt8) : Nat := a.toNat * 256 + b.toNat

/-- The frame `m` is a well-formed APDU with the fields of `a`: header, announced length, data of that length, and the
expected length of the response. -/
inductive ApduLayout : Bytes → Apdu → Prop
  | instruction (cla ins p1 p2 : UInt8) :
      ApduLayout [cla, ins, p1, p2] ⟨cla, ins, p1, p2, 0, [], 0, .instruction⟩
  | le (cla ins p1 p2 b : UInt8) :
      ApduLayout [cla, ins, p1, p2, b] ⟨cla, ins, p1, p2, 0, [], if b = 0 then 256 else b.toNat, .shortLe1⟩
  | short (cla ins p1 p2 lc : UInt8) (data : Bytes) (h : data.length = lc.toNat) (h0 : lc ≠ 0) :
      ApduLayout (cla :: ins :: p1 :: p2 :: lc :: data) ⟨cla, ins, p1, p2, lc.toNat, data, 0, .shortLc1Data⟩
  | shortLe (cla ins p1 p2 lc b : UInt8) (data : Bytes) (h : data.length = lc.toNat) (h0 : lc ≠ 0) :
      ApduLayout (cla :: ins :: p1 :: p2 :: lc :: data ++ [b])
        ⟨cla, ins, p1, p2, lc.toNat, data, if b = 0 then 256 else b.toNat, .shortLc1DataLe1⟩
  | ext (cla ins p1 p2 l1 l2 : UInt8) (data : Bytes) (h : data.length = be2 l1 l2) :
      ApduLayout (cla :: ins :: p1 :: p2 :: 0 :: l1 :: l2 :: data)
        ⟨cla, ins, p1, p2, be2 l1 l2, data, 0, .extLc3Data⟩
  | extLe1 (cla ins p1 p2 l1 l2 b : UInt8) (data : Bytes) (h : data.length = be2 l1 l2) :
      ApduLayout (cla :: ins :: p1 :: p2 :: 0 :: l1 :: l2 :: data ++ [b])
        ⟨cla, ins, p1, p2, be2 l1 l2, data, if b = 0 then 256 else b.toNat, .extLc3DataLe1⟩
  | extLe2 (cla ins p1 p2 l1 l2 b1 b2 : UInt8) (data : Bytes) (h : data.length = be2 l1 l2) :
      ApduLayout (cla :: ins :: p1 :: p2 :: 0 :: l1 :: l2 :: data ++ [b1, b2])
        ⟨cla, ins, p1, p2, be2 l1 l2, data, if be2 b1 b2 = 0 then 65536 else be2 b1 b2, .extLc3DataLe2⟩
  | extLe3 (cla ins p1 p2 l1 l2 b1 b2 : UInt8) (data : Bytes) (h : data.length = be2 l1 l2) :
      ApduLayout (cla :: ins :: p1 :: p2 :: 0 :: l1 :: l2 :: data ++ [0, b1, b2])
        ⟨cla, ins, p1, p2, be2 l1 l2, data, if be2 b1 b2 = 0 then 65536 else be2 b1 b2, .extLe3⟩

/-- The control byte of an authentication request. -/
def U2fFlags.byte : U2fFlags → UInt8
  | .checkOnly => 0x07
  | .enforce => 0x03
  | .dontEnforce => 0x08

/-- The APDU is the U2F request. -/
inductive U2fLayout : Apdu → U2fCommand → Prop
  | register {a : Apdu} (challenge application : Bytes) (hi : a.ins = 0x01) (hc : challenge.length = 32)
      (ha : application.length = 32) (hd : a.data = challenge ++ application) :
      U2fLayout a (.register challenge application)
  | authenticate {a : Apdu} (challenge application handle : Bytes) (flags : U2fFlags) (hi : a.ins = 0x02)
      (hp : a.p1 = flags.byte) (hc : challenge.length = 32) (ha : application.length = 32) (hl : handle.length < 256)
      (hd : a.data = challenge ++ application ++ [UInt8.ofNat handle.length] ++ handle) :
      U2fLayout a (.authenticate challenge application handle flags)
  | version {a : Apdu} (hi : a.ins = 0x03) (hd : a.data = []) : U2fLayout a .version
  | vendor {a : Apdu} (h1 : 0x40 ≤ a.ins) (h2 : a.ins ≤ 0xBF) : U2fLayout a (.vendor a.data)

end Verif.Ctap
