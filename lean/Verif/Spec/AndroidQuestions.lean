import Verif.Spec.AndroidHidl
/-
What Android asks any object, and how it reads the answers: BpBinder::pingBinder, BpBinder::getInterfaceDescriptor and
the methods of BpHwBase. Written from knowledge of Android. A parcel without data is sent by the former two, the latter
ones send the name of the interface, IBase.
-/
set_option autoImplicit false

namespace Gb.Android

/-- IBinder::PING_TRANSACTION, '_PNG' -/
def pingCode : Nat := 0x5f504e47

/-- IBinder::INTERFACE_TRANSACTION, '_NTF' -/
def interfaceCode : Nat := 0x5f4e5446

/-- HIDL_PING_TRANSACTION -/
def hidlPingCode : Nat := 0x0f504e47

/-- HIDL_GET_DESCRIPTOR_TRANSACTION -/
def hidlDescriptorCode : Nat := 0x0f445343

/-- HIDL_DESCRIPTOR_CHAIN_TRANSACTION -/
def hidlChainCode : Nat := 0x0f43484e

/-- android.hidl.base@1.0::IBase -/
def baseName : List Char := ['a', 'n', 'd', 'r', 'o', 'i', 'd', '.', 'h', 'i', 'd', 'l', '.', 'b', 'a', 's', 'e',
  '@', '1', '.', '0', ':', ':', 'I', 'B', 'a', 's', 'e']

/-- BpBinder::getInterfaceDescriptor: reply.readString16(), and what hasn't been looked at. -/
def interfaceOf (b : Bytes) : Option (List Nat × Nat) :=
  match readAt b 0 .string16 with
  | some (.units (some s), p) => some (s, b.length - p)
  | _ => none

/-- `readFromParcel(Status*)`: zero is success. -/
def Parcel.success (c : Parcel) : Option Nat :=
  match readAt c.data 0 .int32 with
  | some (.num n, p) => if n = 0 then some p else none
  | _ => none

/-- BpHwBase::ping: nothing but the status. -/
def Parcel.ping (c : Parcel) : Option Nat := c.success.map (c.data.length - ·)

/-- BpHwBase::interfaceDescriptor -/
def Parcel.interfaceDescriptor (c : Parcel) : Option (Bytes × Nat) := do
  let p ← c.success
  let (s, p) ← c.readString p
  some (s, c.data.length - p)

/-- BpHwBase::interfaceChain -/
def Parcel.interfaceChain (c : Parcel) : Option (List Bytes × Nat) := do
  let p ← c.success
  let (l, p) ← c.readStringVec p
  some (l, c.data.length - p)

end Gb.Android
