import Verif.Cbor.Fit
import Verif.Cbor.Lemmas
import Verif.Cbor.LemmasDec
import Verif.Cbor.LemmasMap
import Verif.Cbor.LemmasOrd
import Verif.Cbor.Model
import Verif.Cbor.Props
import Verif.Cbor.Size
import Verif.Cbor.Spec
import Verif.Crypto.AesLemmas
import Verif.Crypto.AesLemmas2
import Verif.Crypto.AesModel
import Verif.Crypto.AesProps
import Verif.Crypto.AesSpec
import Verif.Crypto.CbcModel
import Verif.Crypto.CbcProps
import Verif.Crypto.CbcSpec
import Verif.Crypto.ShaLemmas
import Verif.Crypto.ShaModel
import Verif.Crypto.ShaProps
import Verif.Crypto.ShaSpec
import Verif.Ctap.Alive
import Verif.Ctap.AnswerLemmas
import Verif.Ctap.AnswerSpec
import Verif.Ctap.ApduSpec
import Verif.Ctap.AuthDataSpec
import Verif.Ctap.AuthLemmas
import Verif.Ctap.AuthLen
import Verif.Ctap.Avoid
import Verif.Ctap.AvoidLemmas
import Verif.Ctap.Base
import Verif.Ctap.BindLemmas
import Verif.Ctap.BlindLemmas
import Verif.Ctap.BlindLogic
import Verif.Ctap.BlindSpec
import Verif.Ctap.BlockedLemmas
import Verif.Ctap.Config
import Verif.Ctap.Core
import Verif.Ctap.CounterSpec
import Verif.Ctap.CredAll
import Verif.Ctap.CredLemmas
import Verif.Ctap.CredMgmt
import Verif.Ctap.CredSpec
import Verif.Ctap.CycleLemmas
import Verif.Ctap.DataFormats
import Verif.Ctap.EnumLemmas
import Verif.Ctap.EnumSpec
import Verif.Ctap.ErrLemmas
import Verif.Ctap.FlagsSpec
import Verif.Ctap.Frame
import Verif.Ctap.GuessLemmas
import Verif.Ctap.GuessSpec
import Verif.Ctap.InfoLemmas
import Verif.Ctap.InfoSpec
import Verif.Ctap.Inversion
import Verif.Ctap.Keep
import Verif.Ctap.KeyLemmas
import Verif.Ctap.KeyStore
import Verif.Ctap.LbSpec
import Verif.Ctap.LiveLemmas
import Verif.Ctap.LiveSpec
import Verif.Ctap.LogLemmas
import Verif.Ctap.Logic
import Verif.Ctap.LoginLemmas
import Verif.Ctap.MapLemmas
import Verif.Ctap.NameSpec
import Verif.Ctap.NamesSpec
import Verif.Ctap.PanicLemmas
import Verif.Ctap.Pin
import Verif.Ctap.PinLemmas
import Verif.Ctap.PinLiveSpec
import Verif.Ctap.PinSpec
import Verif.Ctap.PolicyLemmas
import Verif.Ctap.PolicySpec
import Verif.Ctap.PropsAnswer
import Verif.Ctap.PropsApdu
import Verif.Ctap.PropsAttest
import Verif.Ctap.PropsAuthData
import Verif.Ctap.PropsBlind
import Verif.Ctap.PropsCounter
import Verif.Ctap.PropsCred
import Verif.Ctap.PropsEnum
import Verif.Ctap.PropsExtOut
import Verif.Ctap.PropsFlags
import Verif.Ctap.PropsInfo
import Verif.Ctap.PropsKept
import Verif.Ctap.PropsKey
import Verif.Ctap.PropsLb
import Verif.Ctap.PropsLive
import Verif.Ctap.PropsMgmt
import Verif.Ctap.PropsNames
import Verif.Ctap.PropsPanic
import Verif.Ctap.PropsPin
import Verif.Ctap.PropsPinLive
import Verif.Ctap.PropsPolicy
import Verif.Ctap.PropsRegLive
import Verif.Ctap.PropsRequest
import Verif.Ctap.PropsReset
import Verif.Ctap.PropsToken
import Verif.Ctap.PropsU2f
import Verif.Ctap.PropsU2fLive
import Verif.Ctap.PropsVeil
import Verif.Ctap.PropsVendor
import Verif.Ctap.PropsWire
import Verif.Ctap.RegLemmas
import Verif.Ctap.RegLiveSpec
import Verif.Ctap.RequestEnc
import Verif.Ctap.RequestLemmas
import Verif.Ctap.RequestSpec
import Verif.Ctap.ResetSpec
import Verif.Ctap.SelectLemmas
import Verif.Ctap.SessionLemmas
import Verif.Ctap.Step
import Verif.Ctap.Storage
import Verif.Ctap.TokenLemmas
import Verif.Ctap.TokenSpec
import Verif.Ctap.Toy
import Verif.Ctap.Triple
import Verif.Ctap.U2f
import Verif.Ctap.U2fLiveLemmas
import Verif.Ctap.U2fLiveSpec
import Verif.Ctap.U2fUpSpec
import Verif.Ctap.UntilLemmas
import Verif.Ctap.VeilGuess
import Verif.Ctap.VeilLemmas
import Verif.Ctap.VeilLogic
import Verif.Ctap.VeilSpec
import Verif.Ctap.Vendor
import Verif.Ctap.WireLemmas
import Verif.Ctap.WireRespLemmas
import Verif.Ctap.WireSpec
import Verif.Device.Fast
import Verif.Device.LoginSpec
import Verif.Device.Model
import Verif.Device.PropsLogin
import Verif.Device.PropsSign
import Verif.Device.PropsU2f
import Verif.Device.PropsUpgrade
import Verif.Device.PropsUsb
import Verif.Device.Real
import Verif.Device.RealLogin
import Verif.Device.Spec
import Verif.Device.U2fSpec
import Verif.Device.Upgrade
import Verif.Device.UsbSpec
import Verif.Disk.CallLemmas
import Verif.Disk.CodecLemmas
import Verif.Disk.HoldLemmas
import Verif.Disk.Model
import Verif.Disk.Props
import Verif.Disk.ReadLemmas
import Verif.Disk.SimLemmas
import Verif.Disk.Spec
import Verif.Disk.Tame
import Verif.Hid.Lemmas
import Verif.Hid.Lemmas2
import Verif.Hid.Lemmas3
import Verif.Hid.Lemmas4
import Verif.Hid.Model
import Verif.Hid.Props
import Verif.Hid.Spec
import Verif.Main.Lemmas
import Verif.Main.Lemmas2
import Verif.Main.Model
import Verif.Main.Props
import Verif.Main.PropsTouch
import Verif.Main.Spec
import Verif.Main.Touch
import Verif.P256.CurveLaw
import Verif.P256.CurveLemmas
import Verif.P256.DerLemmas
import Verif.P256.EcLemmas
import Verif.P256.EcModel
import Verif.P256.EcSpec
import Verif.P256.ElimLemmas
import Verif.P256.FieldLemmas
import Verif.P256.FieldModel
import Verif.P256.Int256Lemmas
import Verif.P256.Int256Lemmas2
import Verif.P256.Int256Model
import Verif.P256.MontLemmas
import Verif.P256.MontModel
import Verif.P256.MulLemmas
import Verif.P256.PointLemmas
import Verif.P256.PointModel
import Verif.P256.Precomputed
import Verif.P256.Primes
import Verif.P256.PropsArith
import Verif.P256.PropsEc
import Verif.P256.PropsEdge
import Verif.P256.PropsKeys
import Verif.P256.PropsRfc
import Verif.P256.ReduceLemmas
import Verif.P256.RfcWitness
import Verif.P256.ScalarLemmas
import Verif.P256.SignLemmas
import Verif.Store.Compact
import Verif.Store.Compaction
import Verif.Store.Concat
import Verif.Store.ConcatLemmas
import Verif.Store.Content
import Verif.Store.Copy
import Verif.Store.Entries
import Verif.Store.Find
import Verif.Store.Flash
import Verif.Store.FormatLemmas
import Verif.Store.Fragment
import Verif.Store.FragmentLemmas
import Verif.Store.Geometry
import Verif.Store.Items
import Verif.Store.Iter
import Verif.Store.Linear
import Verif.Store.LinearLemmas
import Verif.Store.Log
import Verif.Store.LogOps
import Verif.Store.LogWrite
import Verif.Store.Model
import Verif.Store.Ops
import Verif.Store.Power
import Verif.Store.Props
import Verif.Store.PropsConcat
import Verif.Store.PropsFragment
import Verif.Store.PropsLinear
import Verif.Store.PropsWord
import Verif.Store.Recover
import Verif.Store.RecoverOp
import Verif.Store.RecoverTrans
import Verif.Store.Scan
import Verif.Store.Spec
import Verif.Store.SpecConcat
import Verif.Store.SpecFragment
import Verif.Store.SpecLinear
import Verif.Store.SpecWord
import Verif.Store.States
import Verif.Store.Trans
import Verif.Store.Transaction
import Verif.Store.Tri
import Verif.Store.Walk
import Verif.Store.Word
import Verif.Store.WordLemmas
import Verif.Tock.BootLemmas
import Verif.Tock.Clock
import Verif.Tock.CryptoCell
import Verif.Tock.InstallLemmas
import Verif.Tock.InstallSpec
import Verif.Tock.Nvmc
import Verif.Tock.Presence
import Verif.Tock.PropsClock
import Verif.Tock.PropsCryptoCell
import Verif.Tock.PropsInstall
import Verif.Tock.PropsNvmc
import Verif.Tock.PropsNvmcUpgrade
import Verif.Tock.PropsPresence
import Verif.Tock.PropsRanges
import Verif.Tock.PropsStorage
import Verif.Tock.PropsUpgrade
import Verif.Tock.Ranges
import Verif.Tock.RangesLemmas
import Verif.Tock.SpecClock
import Verif.Tock.SpecRanges
import Verif.Tock.SpecUpgrade
import Verif.Tock.Storage
import Verif.Tock.Upgrade
import Verif.Tock.UpgradeLemmas
import Verif.Usb.Capsule
import Verif.Usb.CapsuleLemmas
import Verif.Usb.Lemmas
import Verif.Usb.Lemmas2
import Verif.Usb.Lemmas3
import Verif.Usb.Lemmas4
import Verif.Usb.Lemmas5
import Verif.Usb.Model
import Verif.Usb.Props
import Verif.Usb.PropsCapsule
import Verif.Usb.PropsUsbApp
import Verif.Usb.Spec
import Verif.Usb.UsbApp
import Verif.Utf8
