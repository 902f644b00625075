import Verif.Usb.Capsule

/-!
# Lemmas about the USB driver in the kernel
-/
namespace Verif.Usb.Kernel
open Verif.Hid (Bytes Transport)

/-- The packets of an endpoint that the kernel took over from the host. -/
def total (k : Kernel) (t : Transport) : List Bytes :=
  delivered k.upcalls t ++ if (k.eps t).delayedOut then [(k.eps t).outBuffer] else []

theorem delivered_append (l m : List Upcall) (t : Transport) : delivered (l ++ m) t = delivered l t ++ delivered m t := by
  simp [delivered]

theorem total_congr {k k' : Kernel} (h1 : k'.upcalls = k.upcalls)
    (h2 : ∀ t, (k'.eps t).delayedOut = (k.eps t).delayedOut ∧ (k'.eps t).outBuffer = (k.eps t).outBuffer) (t : Transport) :
    total k' t = total k t := by
  unfold total
  rw [h1, (h2 t).1, (h2 t).2]

theorem send_total {k k' : Kernel} {t : Transport} {b : Bool} (h : k.sendPacketToClient t = some (b, k')) (u : Transport) :
    total k' u = total k u ++ if u = t then [(k.eps t).outBuffer] else [] := by
  unfold Kernel.sendPacketToClient at h
  split at h
  · cases h
  · rename_i hd
    simp only [Bool.not_eq_true] at hd
    split at h
    · rename_i hc
      split at h
      · cases h
      · have hr : (({ k with pendingOut := false } : Kernel).cancelIn t).2.canReceive = true := hc
        unfold Kernel.appPacketReceived at h
        dsimp only at h
        rw [if_pos hr] at h
        split at h
        · cases h
        · simp only [Option.map_some, Option.some.injEq, Prod.mk.injEq] at h
          obtain ⟨-, rfl⟩ := h
          by_cases hu : u = t
          · subst hu
            simp [total, Kernel.stopWaiting, Kernel.cancelIn, Kernel.set, delivered, hd]
          · simp [total, Kernel.stopWaiting, Kernel.cancelIn, Kernel.set, delivered, hu, Ne.symm hu]
    · simp only [Option.some.injEq, Prod.mk.injEq] at h
      obtain ⟨-, rfl⟩ := h
      by_cases hu : u = t
      · subst hu
        simp [total, Kernel.set, hd]
      · simp [total, Kernel.set, hu]

theorem deliver_total {k k' : Kernel} {t : Transport} (h : k.deliverDelayed t = some k') (u : Transport) :
    total k' u = total k u := by
  unfold Kernel.deliverDelayed at h
  split at h
  · rename_i hd
    obtain ⟨⟨b, k1⟩, h1, h2⟩ := Option.map_eq_some_iff.1 h
    simp only at h2
    subst h2
    rw [send_total h1]
    by_cases hu : u = t
    · subst hu
      simp [total, Kernel.set, hd]
    · simp [total, Kernel.set, hu]
  · cases h; rfl

theorem receive_total {k k' : Kernel} (h : k.receivePacket = some k') (u : Transport) : total k' u = total k u := by
  unfold Kernel.receivePacket at h
  split at h
  · cases h; rfl
  · obtain ⟨k1, h1, h2⟩ := Option.bind_eq_some_iff.1 h
    rw [deliver_total h2, deliver_total h1]
    rfl

theorem set_total {k : Kernel} {t : Transport} {f : Endpoint → Endpoint}
    (hf : ∀ e, (f e).delayedOut = e.delayedOut ∧ (f e).outBuffer = e.outBuffer) (u : Transport) : total (k.set t f) u = total k u := by
  refine total_congr (k' := k.set t f) (k := k) rfl ?_ u
  intro v
  unfold Kernel.set
  dsimp only
  split
  · exact hf _
  · exact ⟨rfl, rfl⟩

theorem cancelIn_total (k : Kernel) (t u : Transport) : total (k.cancelIn t).2 u = total k u := by
  exact set_total (k := k) (t := t) (f := fun e => { e with txPacket := none, pendingIn := false }) (fun _ => ⟨rfl, rfl⟩) u

theorem cancelOut_total (k : Kernel) (u : Transport) : total k.cancelOut.2 u = total k u := rfl

theorem transmitPacket_total (k : Kernel) (p : Bytes) (n : Nat) (u : Transport) : total (k.transmitPacket p n).2 u = total k u := by
  unfold Kernel.transmitPacket
  split
  · rename_i t _
    split
    · rfl
    · exact set_total (k := k) (t := t) (f := fun e => { e with pendingIn := true, txPacket := some p }) (fun _ => ⟨rfl, rfl⟩) u
  · rfl

theorem setSide_total (k : Kernel) (s : Side) (u : Transport) : total (k.setSide s).2 u = total k u := by
  unfold Kernel.setSide
  split <;> rfl

/-- Packets for the host stay as they are, or are dropped. -/
def TxLe (k k' : Kernel) : Prop := ∀ t, (k'.eps t).txPacket = (k.eps t).txPacket ∨ (k'.eps t).txPacket = none

theorem TxLe.refl (k : Kernel) : TxLe k k := fun _ => .inl rfl

theorem TxLe.trans {a b c : Kernel} (h : TxLe a b) (h' : TxLe b c) : TxLe a c := by
  intro t
  rcases h' t with h1 | h1
  · rw [h1]; exact h t
  · exact .inr h1

theorem TxLe.of_eps {a b : Kernel} (h : b.eps = a.eps) : TxLe a b := fun t => .inl (by rw [h])

theorem TxLe.set (k : Kernel) (t : Transport) (f : Endpoint → Endpoint)
    (hf : ∀ e, (f e).txPacket = e.txPacket ∨ (f e).txPacket = none) : TxLe k (k.set t f) := by
  intro u
  unfold Kernel.set
  dsimp only
  split
  · exact hf _
  · exact .inl rfl

theorem TxLe.send {k k' : Kernel} {t : Transport} {b : Bool} (h : k.sendPacketToClient t = some (b, k')) : TxLe k k' := by
  unfold Kernel.sendPacketToClient at h
  split at h
  · cases h
  · split at h
    · split at h
      · cases h
      · unfold Kernel.appPacketReceived at h
        dsimp only at h
        split at h
        · split at h
          · cases h
          · simp only [Option.map_some, Option.some.injEq, Prod.mk.injEq] at h
            obtain ⟨-, rfl⟩ := h
            exact TxLe.set { k with pendingOut := false } t (fun e => { e with txPacket := none, pendingIn := false }) fun _ => .inr rfl
        · simp only [Option.map_some, Option.some.injEq, Prod.mk.injEq] at h
          obtain ⟨-, rfl⟩ := h
          exact TxLe.set { k with pendingOut := false } t (fun e => { e with txPacket := none, pendingIn := false }) fun _ => .inr rfl
    · simp only [Option.some.injEq, Prod.mk.injEq] at h
      obtain ⟨-, rfl⟩ := h
      exact TxLe.set k t (fun e => { e with delayedOut := true }) fun _ => .inl rfl

theorem TxLe.deliver {k k' : Kernel} {t : Transport} (h : k.deliverDelayed t = some k') : TxLe k k' := by
  unfold Kernel.deliverDelayed at h
  split at h
  · obtain ⟨⟨b, k1⟩, h1, h2⟩ := Option.map_eq_some_iff.1 h
    simp only at h2
    subst h2
    exact (TxLe.set k t (fun e => { e with delayedOut := false }) fun _ => .inl rfl).trans (TxLe.send h1)
  · cases h; exact TxLe.refl k

theorem TxLe.receive {k k' : Kernel} (h : k.receivePacket = some k') : TxLe k k' := by
  unfold Kernel.receivePacket at h
  split at h
  · cases h; exact TxLe.refl k
  · obtain ⟨k1, h1, h2⟩ := Option.bind_eq_some_iff.1 h
    exact (TxLe.of_eps (a := k) (b := { k with pendingOut := true }) rfl).trans ((TxLe.deliver h1).trans (TxLe.deliver h2))

theorem setSide_eps (k : Kernel) (s : Side) : (k.setSide s).2.eps = k.eps := by
  unfold Kernel.setSide
  split <;> rfl

theorem TxLe.cancelIn (k : Kernel) (t : Transport) : TxLe k (k.cancelIn t).2 :=
  TxLe.set k t (fun e => { e with txPacket := none, pendingIn := false }) fun _ => .inr rfl

theorem TxLe.cancel (k : Kernel) (n : Nat) : TxLe k (k.cancel n).2 := by
  unfold Kernel.cancel
  split
  · unfold Kernel.cancelTransaction
    split
    · split
      · rename_i t _
        exact TxLe.cancelIn k.stopWaiting t
      · exact TxLe.of_eps rfl
    · have h1 := TxLe.cancelIn k.stopWaiting .main
      have h2 := TxLe.cancelIn (k.stopWaiting.cancelIn .main).2.cancelOut.2 .vendor
      intro t
      exact TxLe.trans (b := (k.stopWaiting.cancelIn .main).2) h1 h2 t
  · exact TxLe.refl k

theorem cancel_total (k : Kernel) (n : Nat) (u : Transport) : total (k.cancel n).2 u = total k u := by
  unfold Kernel.cancel
  split
  · unfold Kernel.cancelTransaction
    split
    · split
      · exact cancelIn_total k.stopWaiting _ u
      · rfl
    · exact (cancelIn_total _ .vendor u).trans (cancelIn_total k.stopWaiting .main u)
  · rfl

end Verif.Usb.Kernel
