import Verif.Model.Consts
/-!
# src/cdc.rs
-/

namespace Usbip

/-- src/cdc.rs:6-8 `UsbCdcAcmHandler`. -/
structure Cdc where
  txBuffer : Bytes
  deriving DecidableEq, Repr

/-- src/cdc.rs:17 `CDC_ACM_SUBCLASS`. -/
def cdcAcmSubclass : UInt8 := 0x02

/-- src/cdc.rs:20-22 `new`. -/
def Cdc.new : Cdc := ⟨[]⟩

/-- src/cdc.rs:24-48 `endpoints`. -/
def Cdc.endpoints : List Endpoint := [
  { address := 0x81, attributes := EndpointAttributes.interrupt.toU8
    maxPacketSize := 0x08, interval := 10 },
  { address := 0x82, attributes := EndpointAttributes.bulk.toU8
    maxPacketSize := 512, interval := 0 },
  { address := 0x02, attributes := EndpointAttributes.bulk.toU8
    maxPacketSize := 512, interval := 0 }]

/-- src/cdc.rs:52-85 `UsbCdcAcmHandler::handle_urb` (everything but the endpoint is ignored; OUT
data is only logged). -/
def Cdc.handleUrb (c : Cdc) (ep : Endpoint) : HRes × Cdc :=
  if ep.attributes = EndpointAttributes.interrupt.toU8 then (.ok [], c)
  else
    match ep.direction with
    | .out => (.ok [], c)
    | .in => (.ok c.txBuffer, { c with txBuffer := [] })

/-- src/cdc.rs:87-100 `get_class_specific_descriptor`. -/
def Cdc.classDescriptor : Bytes :=
  [0x05, 0x24, 0x00, 0x10, 0x01, 0x04, 0x24, 0x02, 0x00]

end Usbip
