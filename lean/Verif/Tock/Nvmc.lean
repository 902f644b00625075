import Verif.Tock.Storage

/-!
# The flash driver of the kernel
`patches/tock/06-persistent-storage.patch`, the filter of system calls in the boards, and `third_party/libtock-drivers/src/storage.rs`, which
calls it. There is one application. Line numbers without a file are those of the patch.

A word is the list of its four bytes; `&` of words is then `&` of their bytes.
-/
namespace Verif.Tock

/-- The flash. `writes` counts how often a word was written since its page was erased. -/
structure Flash where
  mem : Mem
  writes : Nat → Nat

/-- `is_write_needed` (136-139). -/
def isWriteNeeded (old new : List UInt8) : Bool := old.zipWith (· &&& ·) new ≠ old

/-- One turn of the loop in `write_slice` (186-193). Writing to the flash clears bits. -/
def Flash.writeWord (f : Flash) (a : Nat) (w : List UInt8) : Flash :=
  if isWriteNeeded (f.mem.read a 4) w then
    { mem := f.mem.write a w .ok, writes := fun i => if i = a / 4 then f.writes i + 1 else f.writes i }
  else f

/-- The loop in `write_slice` (186-193). The length of the slice is a multiple of 4; a rest of fewer bytes would panic. -/
def Flash.writeWords (f : Flash) (a : Nat) : List UInt8 → Flash
  | b0 :: b1 :: b2 :: b3 :: rest => (f.writeWord a [b0, b1, b2, b3]).writeWords (a + 4) rest
  | _ => f

/-- `erase_page_helper` of the controller, which is not in the repository: all bits of the page are set. -/
def Flash.erase (f : Flash) (page : Nat) : Flash :=
  { mem := f.mem.erase (page * 4096) 4096 .ok, writes := fun i => if i / 1024 = page then 0 else f.writes i }

/-- `SyscallDriver` (122-129). `buffer` is the length of its buffer, if it is in its place; `deferred` says that the deferred call is set;
`upcalls` counts the upcalls, all with status 0. -/
structure Nvmc where
  flash : Flash
  buffer : Option Nat
  waiting : Bool := false
  deferred : Bool := false
  upcalls : Nat := 0

/-- `CommandReturn`. -/
inductive NvmcRet | success | inval | busy | reserve
deriving DecidableEq, Repr

/-- `write_slice` (181-199). -/
def Nvmc.writeSlice (d : Nvmc) (ptr : Nat) (slice : List UInt8) : NvmcRet × Nvmc :=
  if ptr % 4 ≠ 0 ∨ slice.length % 4 ≠ 0 then (.inval, d)
  else (.success, { d with flash := d.flash.writeWords ptr slice, deferred := true })

/-- `erase_page` (208-217). -/
def Nvmc.erasePage (d : Nvmc) (ptr : Nat) : NvmcRet × Nvmc :=
  if ptr % 4096 ≠ 0 then (.inval, d)
  else (.success, { d with flash := d.flash.erase (ptr / 4096), deferred := true })

/-- The commands 2 and 3 with their arguments, and the buffer that the application shares. -/
inductive FlashReq
  | write (ptr len : Nat) (buf : List UInt8)
  | erase (ptr len : Nat)

/-- Command 2 (251-290). The buffer is taken, and not put back if the command is refused. The length that the application passes is
ignored. -/
def Nvmc.commandWrite (d : Nvmc) (ptr : Nat) (buf : List UInt8) : NvmcRet × Nvmc :=
  match d.buffer with
  | none => (.reserve, d)
  | some n =>
    if buf.length > n then (.inval, { d with buffer := none })
    else if d.waiting then (.busy, { d with buffer := none })
    else
      let r := ({ d with buffer := none, waiting := true } : Nvmc).writeSlice ptr buf
      (r.1, { r.2 with buffer := some n })

/-- Command 3 (292-301). -/
def Nvmc.commandErase (d : Nvmc) (ptr len : Nat) : NvmcRet × Nvmc :=
  if len ≠ 4096 then (.inval, d)
  else if d.waiting then (.busy, d)
  else ({ d with waiting := true } : Nvmc).erasePage ptr

/-- `fits_in_storage_location` (`patches/tock/06-persistent-storage.patch:491-510`). -/
def fitsInStorage (locs : List Location) (ptr len : Nat) : Bool :=
  locs.any fun l => l.address ≤ ptr && len ≤ l.size && ptr - l.address ≤ l.size - len

/-- `filter_syscall` (`boards/nordic/nrf52840dk_opensk/src/main.rs:208-227`) and the command. -/
def Nvmc.command (locs : List Location) (d : Nvmc) : FlashReq → NvmcRet × Nvmc
  | .write ptr len buf => if fitsInStorage locs ptr len then d.commandWrite ptr buf else (.inval, d)
  | .erase ptr len => if fitsInStorage locs ptr len then d.commandErase ptr len else (.inval, d)

/-- The deferred call (220-228). -/
def Nvmc.deferredCall (d : Nvmc) : Nvmc :=
  if d.deferred then { d with deferred := false, waiting := false, upcalls := d.upcalls + if d.waiting then 1 else 0 } else d

/-- `block_command` (`third_party/libtock-drivers/src/storage.rs:93-107`): an error of the command is returned; otherwise the application
yields, the deferred call runs, and the upcall says whether it was successful. `none` if there is none. -/
def Nvmc.call (locs : List Location) (d : Nvmc) (q : FlashReq) : Option (Bool × Nvmc) :=
  let r := d.command locs q
  if r.1 ≠ .success then some (false, r.2)
  else if r.2.deferredCall.upcalls = r.2.upcalls then none
  else some (true, r.2.deferredCall)

/-- `write_slice` (`third_party/libtock-drivers/src/storage.rs:109-119`): the length is that of the buffer. -/
def writeReq (ptr : Nat) (value : List UInt8) : FlashReq := .write ptr value.length value

/-- `erase_page` (`third_party/libtock-drivers/src/storage.rs:121-128`). -/
def eraseReq (ptr len : Nat) : FlashReq := .erase ptr len

/-- The driver when the device starts (142-157), with a buffer of a page (`boards/nordic/nrf52840dk_opensk/src/main.rs:144`). -/
def Nvmc.boot (f : Flash) : Nvmc := { flash := f, buffer := some 4096 }

end Verif.Tock
