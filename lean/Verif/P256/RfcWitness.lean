import Verif.P256.PropsKeys

/-! The intermediate values of a deterministic signature whose first candidate is not below the group
    order: the secret is 1 and the message is the one below. Computed in the kernel with the model of
    SHA-256. -/

set_option maxRecDepth 100000

namespace Verif.P256.Rfc

abbrev Bytes := List UInt8

/-- The message. -/
def msg : Bytes :=
    [0x00, 0x00, 0x00, 0x00, 0x96, 0xf3, 0x02, 0xfe]

/-- Its hash. -/
def hm : Bytes :=
    [0xdd, 0xd2, 0xc7, 0x94, 0x7f, 0xa2, 0xca, 0xa4, 0xdd, 0x61, 0x7f, 0x00, 0x03, 0x27, 0xc5, 0x8c,
     0xf5, 0x98, 0xab, 0xaa, 0x3d, 0x86, 0xa7, 0xef, 0x35, 0xc5, 0xed, 0xbe, 0xf3, 0x7e, 0x22, 0x9d]

/-- `K` after step d. -/
def K1 : Bytes :=
    [0x2a, 0x79, 0x7a, 0xf7, 0x07, 0x62, 0x08, 0x36, 0x63, 0x2a, 0x80, 0x31, 0x16, 0xa5, 0x81, 0x94,
     0xbe, 0xa8, 0x5c, 0x3e, 0x15, 0xe8, 0xe0, 0xdd, 0x4d, 0x38, 0xbe, 0x22, 0xbe, 0x67, 0xa0, 0x59]

/-- `V` after step e. -/
def V1 : Bytes :=
    [0x8b, 0xff, 0xa4, 0xa1, 0x7b, 0xdd, 0x9c, 0x77, 0xa6, 0x67, 0xbe, 0xb5, 0x8c, 0xbd, 0xc5, 0xcd,
     0x18, 0x7a, 0xf3, 0x65, 0xb6, 0x6c, 0xc1, 0xd8, 0x3f, 0xcd, 0x2c, 0xe5, 0x36, 0x54, 0x68, 0xeb]

/-- `K` after step f. -/
def K2 : Bytes :=
    [0xf1, 0xc4, 0xb2, 0xda, 0xba, 0xd5, 0xa0, 0x93, 0x80, 0xb1, 0x88, 0x07, 0x2b, 0x41, 0xaa, 0x70,
     0xca, 0xb6, 0x49, 0x58, 0xc2, 0x6d, 0xe3, 0x12, 0xfb, 0x3b, 0x96, 0x86, 0xcd, 0x7d, 0x0c, 0x30]

/-- `V` after step g. -/
def V2 : Bytes :=
    [0x0a, 0x56, 0x37, 0x3a, 0x26, 0x4b, 0x19, 0x3e, 0x55, 0xdc, 0x07, 0x28, 0xd5, 0xa2, 0x4c, 0xef,
     0x21, 0x9b, 0x06, 0xc7, 0x38, 0x86, 0x14, 0x9b, 0xe2, 0x15, 0xfe, 0xbb, 0x66, 0xe8, 0xa2, 0xae]

/-- The first candidate. -/
def T1 : Bytes :=
    [0xff, 0xff, 0xff, 0xff, 0x97, 0x6c, 0x6d, 0xe3, 0x5d, 0x24, 0x89, 0x05, 0x75, 0xbd, 0x6a, 0xdc,
     0x19, 0xeb, 0xfd, 0x53, 0x5f, 0x2e, 0xcf, 0x5a, 0x5b, 0x46, 0x62, 0xa1, 0x9d, 0x6d, 0x56, 0x21]

/-- `K` of the code after the first candidate. -/
def Kc : Bytes :=
    [0x93, 0x8a, 0xf7, 0xc9, 0xca, 0x47, 0xb8, 0x72, 0x3c, 0xdc, 0xa4, 0x90, 0x38, 0xb6, 0x41, 0x60,
     0x52, 0xf1, 0x67, 0x5a, 0xcd, 0x1d, 0x12, 0xc8, 0x12, 0xb1, 0x37, 0x95, 0xaa, 0x49, 0x56, 0x01]

/-- `V` of the code after the first candidate. -/
def Vc : Bytes :=
    [0x4b, 0x62, 0x95, 0x42, 0xd0, 0x58, 0x19, 0x82, 0x58, 0x1e, 0x11, 0xb9, 0x25, 0x5e, 0x35, 0xa8,
     0x5d, 0x88, 0xee, 0x45, 0x06, 0xd5, 0xc2, 0xaf, 0x01, 0x44, 0x78, 0x82, 0x38, 0xd2, 0xed, 0x10]

/-- The second candidate of the code. -/
def Tc : Bytes :=
    [0x8d, 0x7a, 0xb9, 0x37, 0xee, 0x87, 0x9c, 0x9a, 0x69, 0x94, 0x7c, 0xe1, 0xb0, 0x0c, 0x90, 0xcd,
     0x92, 0x0a, 0xde, 0x16, 0x2f, 0x76, 0x61, 0x17, 0x77, 0x55, 0x59, 0x7e, 0x4a, 0x23, 0x1b, 0x76]

/-- `K` of the RFC after the first candidate. -/
def Kr : Bytes :=
    [0x32, 0x48, 0xea, 0x92, 0x28, 0x8e, 0xf8, 0x5d, 0xc1, 0x98, 0x4a, 0x22, 0xe1, 0xeb, 0x6f, 0xfb,
     0x32, 0xdd, 0x14, 0xe8, 0xbe, 0x4b, 0x8d, 0x4a, 0xd7, 0x98, 0x66, 0xad, 0xe7, 0xc8, 0x2f, 0x86]

/-- `V` of the RFC after the first candidate. -/
def Vr : Bytes :=
    [0xcf, 0x33, 0x4d, 0xb9, 0x1f, 0x00, 0xf1, 0xf9, 0xef, 0x86, 0x2f, 0xc7, 0x90, 0x97, 0x11, 0x82,
     0x2b, 0x26, 0x89, 0x2f, 0x70, 0xef, 0x13, 0x58, 0xc9, 0x9a, 0x15, 0xf5, 0x0e, 0x87, 0x9d, 0x17]

/-- The second candidate of the RFC. -/
def Tr : Bytes :=
    [0x67, 0x57, 0x80, 0xd7, 0xa5, 0x68, 0x03, 0x19, 0xfa, 0xf8, 0x9a, 0x42, 0x10, 0x97, 0xc1, 0x6e,
     0x32, 0xb8, 0x08, 0x26, 0x8a, 0x25, 0x8e, 0x79, 0x3f, 0xdf, 0x00, 0xe8, 0x87, 0xc9, 0x8c, 0xdd]

/-- The secret and the hash, as they are fed to the MAC. -/
def tail : Bytes := List.replicate 31 0 ++ [1] ++ hm

theorem hash_msg : Crypto.Sha.hash 32 msg = hm := by
  decide +kernel

theorem mac_K1 : Crypto.Sha.hmac 32 (List.replicate 32 0) (List.replicate 32 1 ++ [0] ++ tail) = K1 := by
  decide +kernel

theorem mac_V1 : Crypto.Sha.hmac 32 (K1) (List.replicate 32 1) = V1 := by
  decide +kernel

theorem mac_K2 : Crypto.Sha.hmac 32 (K1) (V1 ++ [1] ++ tail) = K2 := by
  decide +kernel

theorem mac_V2 : Crypto.Sha.hmac 32 (K2) (V1) = V2 := by
  decide +kernel

theorem mac_T1 : Crypto.Sha.hmac 32 (K2) (V2) = T1 := by
  decide +kernel

theorem mac_Kc : Crypto.Sha.hmac 32 (K2) (V2 ++ [0]) = Kc := by
  decide +kernel

theorem mac_Vc : Crypto.Sha.hmac 32 (Kc) (V2) = Vc := by
  decide +kernel

theorem mac_Tc : Crypto.Sha.hmac 32 (Kc) (Vc) = Tc := by
  decide +kernel

theorem mac_Kr : Crypto.Sha.hmac 32 (K2) (T1 ++ [0]) = Kr := by
  decide +kernel

theorem mac_Vr : Crypto.Sha.hmac 32 (Kr) (T1) = Vr := by
  decide +kernel

theorem mac_Tr : Crypto.Sha.hmac 32 (Kr) (Vr) = Tr := by
  decide +kernel

/-- The `x` coordinate of the second candidate of the code times the base point. -/
def xc : Nat := 0x1c6475830db4ba91b1f20211aa53fe30036d05729750a1ad676dd5d4da923

/-- The `x` coordinate of the second candidate of the RFC times the base point. -/
def xr : Nat := 0x2bf0e3c28fc95557529d0427dee5655113018bfd4f41d1cc350df367176dcb07

/-! The vector of RFC 6979, A.2.5, for SHA-256 and the message "sample". -/

namespace Sample

/-- The message. -/
def msg : Bytes := [0x73, 0x61, 0x6d, 0x70, 0x6c, 0x65]

/-- The secret. -/
def d : Nat := 0xC9AFA9D845BA75166B5C215767B1D6934E50C3DB36E89B127B8A622B120F6721

/-- The candidate. -/
def k : Nat := 0xA6E3C57DD01ABE90086538398355DD4C3B17AA873382B0F24D6129493D8AAD60

/-- The signature. -/
def r : Nat := 0xEFD48B2AACB6A8FD1140DD9CD45E81D69D2C877B56AAF991C34D0EA84EAF3716
@[inherit_doc r] def s : Nat := 0xF7CB1C942D657C41D436C7A1B6E29F65F3E900DBB9AFF4064DC4AB2F843ACDA8

def hm : Bytes :=
    [0xaf, 0x2b, 0xdb, 0xe1, 0xaa, 0x9b, 0x6e, 0xc1, 0xe2, 0xad, 0xe1, 0xd6, 0x94, 0xf4, 0x1f, 0xc7,
     0x1a, 0x83, 0x1d, 0x02, 0x68, 0xe9, 0x89, 0x15, 0x62, 0x11, 0x3d, 0x8a, 0x62, 0xad, 0xd1, 0xbf]

def K1 : Bytes :=
    [0x12, 0x2d, 0xb1, 0xde, 0x98, 0xda, 0xe4, 0xdf, 0xa3, 0x3f, 0x2d, 0xa8, 0xe9, 0x84, 0x94, 0xc8,
     0x0b, 0xff, 0x80, 0x7b, 0x47, 0x9f, 0xd7, 0x92, 0x61, 0xb3, 0x7e, 0x25, 0xf2, 0x67, 0xee, 0x58]

def V1 : Bytes :=
    [0xc9, 0x94, 0x78, 0x03, 0xa7, 0x47, 0xfc, 0x60, 0xc2, 0x35, 0x35, 0xfd, 0xcc, 0x13, 0xb5, 0xca,
     0x56, 0x6b, 0x48, 0x22, 0x1c, 0xa6, 0x7d, 0x49, 0x64, 0xd2, 0x2d, 0xaa, 0x48, 0x27, 0x58, 0x44]

def K2 : Bytes :=
    [0xb6, 0xd4, 0xf9, 0x8e, 0xba, 0xe7, 0x0a, 0xa1, 0x5a, 0x22, 0x38, 0xad, 0xe4, 0xe2, 0x0a, 0xb3,
     0x23, 0xfc, 0x1e, 0x77, 0x7d, 0x22, 0xf0, 0xc5, 0x82, 0xd8, 0xef, 0x2e, 0x6b, 0xa7, 0x35, 0x69]

def V2 : Bytes :=
    [0xba, 0xe5, 0x7f, 0xe2, 0x56, 0xde, 0x2d, 0xe8, 0x06, 0xb1, 0x06, 0x35, 0x49, 0x72, 0x37, 0xe7,
     0xba, 0xe9, 0x67, 0x54, 0x58, 0x25, 0x66, 0x38, 0x4c, 0x47, 0xc6, 0xc3, 0x41, 0x64, 0x94, 0xd1]

def T : Bytes :=
    [0xa6, 0xe3, 0xc5, 0x7d, 0xd0, 0x1a, 0xbe, 0x90, 0x08, 0x65, 0x38, 0x39, 0x83, 0x55, 0xdd, 0x4c,
     0x3b, 0x17, 0xaa, 0x87, 0x33, 0x82, 0xb0, 0xf2, 0x4d, 0x61, 0x29, 0x49, 0x3d, 0x8a, 0xad, 0x60]

def tail : Bytes := Spec.int2octets d ++ hm

theorem hash_msg : Crypto.Sha.hash 32 msg = hm := by decide +kernel

theorem mac_K1 : Crypto.Sha.hmac 32 (List.replicate 32 0) (List.replicate 32 1 ++ [0] ++ tail) = K1 := by
  decide +kernel

theorem mac_V1 : Crypto.Sha.hmac 32 (K1) (List.replicate 32 1) = V1 := by
  decide +kernel

theorem mac_K2 : Crypto.Sha.hmac 32 (K1) (V1 ++ [1] ++ tail) = K2 := by
  decide +kernel

theorem mac_V2 : Crypto.Sha.hmac 32 (K2) (V1) = V2 := by
  decide +kernel

theorem mac_T : Crypto.Sha.hmac 32 (K2) (V2) = T := by
  decide +kernel

end Sample

end Verif.P256.Rfc
