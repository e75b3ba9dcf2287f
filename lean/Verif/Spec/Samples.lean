import Verif.Model.Server
/-! Concrete values used to show that the theorems' hypotheses can be met. -/

namespace Usbip.Samples

open Usbip

/-- `cargo run` and `cargo run --release`. -/
def dev : Profile := ⟨true, true⟩
def release : Profile := ⟨false, false⟩

/-- A header of an OUT submit. -/
def hdrOut : Header := ⟨1, 7, 65538, 0, 2⟩
/-- A header of an IN submit. -/
def hdrIn : Header := ⟨1, 8, 65538, 1, 1⟩

/-- An OUT submit carrying three bytes. -/
def cmdOut : Cmd := .submit hdrOut 0 3 0 0 0 [0, 0, 0, 0, 0, 0, 0, 0] [10, 20, 30] []
/-- An IN submit with two ISO packet descriptors. -/
def cmdIso : Cmd := .submit hdrIn 0 64 0 2 0 [0, 0, 0, 0, 0, 0, 0, 0] [] (List.replicate 32 5)
/-- An import of bus id "0-0-0". -/
def cmdImport : Cmd := .reqImport 0 ([48, 45, 48, 45, 48] ++ List.replicate 27 0)
/-- An unlink of request 7. -/
def cmdUnlink : Cmd := .unlink ⟨2, 9, 65538, 0, 0⟩ 7

/-- GET_DESCRIPTOR(device), 18 bytes, as a submit. -/
def cmdGetDesc : Cmd := .submit ⟨1, 1, 65538, 1, 0⟩ 0 18 0 0 0 [0x80, 6, 0, 1, 0, 0, 18, 0] [] []

/-- An interface with one bulk IN endpoint 0x81 and an interrupt OUT endpoint 0x02. -/
def intf0 : Iface :=
  { interfaceClass := 3, interfaceSubclass := 1, interfaceProtocol := 2
    endpoints := [⟨0x81, 2, 64, 0⟩, ⟨0x02, 3, 8, 10⟩]
    stringInterface := 5, classSpecificDescriptor := [3, 0x21, 7], handler := 0 }

def intf1 : Iface :=
  { interfaceClass := 255, interfaceSubclass := 0, interfaceProtocol := 0
    endpoints := [⟨0x83, 3, 8, 1⟩]
    stringInterface := 0, classSpecificDescriptor := [], handler := 1 }

/-- A device with bus id "1-1". -/
def devA : Device :=
  { Device.default with
    path := [47, 97], busId := [49, 45, 49], busNum := 1, devNum := 1, speed := 3
    vendorId := 0x1234, productId := 0xABCD, deviceBcd := ⟨2, 0, 0⟩
    configurationValue := 1, numConfigurations := 1
    interfaces := [intf0, intf1], deviceHandler := none
    ep0In := ⟨0x80, 0, 64, 0⟩, ep0Out := ⟨0x00, 0, 64, 0⟩
    stringPool := fun i => if i = 5 then some ['h', 'i'] else if i = 1 then some ['é', '😀'] else none
    stringManufacturer := 1 }

/-- A device with bus id "1-2". -/
def devB : Device :=
  { devA with busId := [49, 45, 50], devNum := 2, interfaces := [], deviceHandler := some 4 }

/-- The 32-byte bus id field "1-1". -/
def busA : Bytes := [49, 45, 49] ++ List.replicate 29 0
def busB : Bytes := [49, 45, 50] ++ List.replicate 29 0

/-- Handlers: number 0 counts its calls and echoes the count, number 1 panics, others fail. -/
def env : Env Nat where
  iface h _ _ _ _ _ n :=
    if h = 0 then (.ok [UInt8.ofNat n, 7], n + 1) else if h = 1 then (.panic, n) else (.err .other, n)
  dev h _ _ _ n := if h = 4 then (.ok [9], n + 10) else (.panic, n)

def world : World Nat := ⟨0, fun _ => false, fun _ => false⟩

end Usbip.Samples
