import Verif.Ctap.ResetSpec

/-!
# Specification of the large blob array
-/
namespace Verif.Ctap
variable [Dev]

/-- The array ends with the beginning of the hash of the rest. -/
def Intact (b : Bytes) : Prop :=
  16 ≤ b.length ∧ (Dev.sha256 (b.take (b.length - 16))).take 16 = b.drop (b.length - 16)

/-- The latest of these fragments (offset and content, latest first), back to one at offset 0, join without gaps to `b`. -/
inductive Upload : List (Nat × Bytes) → Bytes → Prop
  | first (f : Bytes) (rest : List (Nat × Bytes)) : Upload ((0, f) :: rest) f
  | next {l : List (Nat × Bytes)} {b : Bytes} (f : Bytes) (h : Upload l b) : Upload ((b.length, f) :: l) (b ++ f)

/-- The fragment in an upload request. -/
def Command.fragment : Command → List (Nat × Bytes)
  | .largeBlobs a => match a.get, a.set with
    | none, some f => [(a.offset, f)]
    | _, _ => []
  | _ => []

/-- The fragment in an input, if it is an upload request. -/
def Input.fragment (i : Input) : List (Nat × Bytes) := i.requests.flatMap Command.fragment

/-- The fragment in an input, if it is an upload request that succeeds in the state `s`. -/
def Input.accepted (i : Input) (s : St) : List (Nat × Bytes) :=
  match i with
  | .ctap2 ch msg => match Command.deserialize msg with
    | .ok cmd => match (processParsed cmd ch s).1 with
      | .ok _ => cmd.fragment
      | _ => []
    | .error _ => []
  | _ => []

/-- Since power-up, the upload requests with the fragments `l` (latest first) succeeded; now the state is `s`. -/
inductive Uploaded (P : Oracle → Prop) : List (Nat × Bytes) → St → Prop
  | boot {b : Bool} {s : St} {o : Oracle} (h : Reach P b s) (ho : P o) (ha : (bootM (s.withOracle o)).1.alive = true) :
      Uploaded P [] (bootM (s.withOracle o)).2
  | step {l : List (Nat × Bytes)} {s : St} {o : Oracle} {i : Input} (h : Uploaded P l s) (ho : P o)
      (ha : (stepM i (s.withOracle o)).1.alive = true) :
      Uploaded P (i.accepted (s.withOracle o) ++ l) (stepM i (s.withOracle o)).2

/-- The array as it is read: the initial one is an empty CBOR array and the beginning of its hash. -/
def St.largeBlobArray (s : St) : Bytes := s.p.largeBlob.getD emptyLargeBlob

/-- From `s` on, the device got requests to read the array, which succeeded and returned one part after the other from
the start, joined `read`; in between it got other inputs, and the array stayed the same. -/
inductive Reading (s : St) : Bytes → St → Prop
  | start : Reading s [] s
  | read {read part : Bytes} {s1 s2 : St} {n : Nat} {ch : Channel} {o : Oracle} {msg : Bytes} {a : LbParams}
      (h : Reading s read s1) (hm : Command.deserialize msg = .ok (.largeBlobs a)) (hg : a.get = some n)
      (ho : a.offset = read.length)
      (hr : processParsed (.largeBlobs a) ch (s1.withOracle o) = (.ok (.largeBlobs (some part)), s2)) :
      Reading s (read ++ part) (stepM (.ctap2 ch msg) (s1.withOracle o)).2
  | other {read : Bytes} {s1 : St} {o : Oracle} {i : Input} (h : Reading s read s1)
      (hk : (stepM i (s1.withOracle o)).2.largeBlobArray = s1.largeBlobArray) :
      Reading s read (stepM i (s1.withOracle o)).2

end Verif.Ctap
