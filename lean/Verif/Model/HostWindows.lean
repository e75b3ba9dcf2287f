import Verif.Model.Host
/-!
# The nusb device handler on Windows

src/host.rs:286-300: both calls of nusb are compiled out (`cfg!(not(target_os = "windows"))`).
-/

namespace Usbip

/-- src/host.rs:257-302 `NusbUsbHostDeviceHandler::handle_urb` on Windows.  The control request is built (and building it panics) as
elsewhere; then there is only a warning, which is not modelled. -/
def nusbDevWindows {σ} (setup : SetupPacket) (s : σ) : HRes × σ :=
  match nusbControl setup with
  | none => (.panic, s)
  | some _ => (.ok [], s)

end Usbip
