import Verif.Model.Basic
/-! Model of src/marker.rs. -/
namespace Jpeg

/-- src/marker.rs:3-75 `Marker`/`SOFType`, restricted to the markers the encoder writes. -/
inductive Marker where
  | sofBaseline | sofProgressive | dht | rst (n : Nat) | soi | eoi | sos | dqt | dri | app (n : Nat)
deriving DecidableEq, Repr

/-- src/marker.rs:77-116 `From<Marker> for u8` (`0xD0 + v`, `0xE0 + v` are `u8` additions). -/
def Marker.toU8 (pf : Platform) : Marker → R Nat
  | .sofBaseline => .ok 0xC0
  | .sofProgressive => .ok 0xC2
  | .dht => .ok 0xC4
  | .rst v => ckU pf 8 (0xD0 + v)
  | .soi => .ok 0xD8
  | .eoi => .ok 0xD9
  | .sos => .ok 0xDA
  | .dqt => .ok 0xDB
  | .dri => .ok 0xDD
  | .app v => ckU pf 8 (0xE0 + v)

end Jpeg
