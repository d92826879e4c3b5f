import Verif.Base
/-!
# Model of `src/trau/csd_ra2.c` (RA2 rate adaption)

`ubit_t` buffers are `List Bool`, octet buffers `List Byte`.  The C functions take the number of
octets; reading past the caller's buffer is `Fault.oob`.
-/
namespace Verif.Ra2

/-- value of a `ubit_t` in integer arithmetic -/
def u8 (b : Bool) : Byte := if b then 1 else 0

/-- csd_ra2.c:25-33 `osmo_csd_ra2_8k_pack` (loop over `i < n_out_bytes`, starting at input `i`). -/
def pack8From (bits : List Bool) (i : Nat) : Nat → M (List Byte)
  | 0 => .ok []
  | n + 1 => do
    let b ← rd bits i
    let rest ← pack8From bits (i + 1) n
    .ok ((0x7F ||| (u8 b <<< 7)) :: rest)

/-- csd_ra2.c:25-33 -/
def pack8 (bits : List Bool) (nOut : Nat) : M (List Byte) := pack8From bits 0 nOut

/-- csd_ra2.c:35-42 `osmo_csd_ra2_8k_unpack`; `bytes` are the `n_in_bytes` octets given. -/
def unpack8 (bytes : List Byte) : List Bool := bytes.map fun (b : Byte) => ((b >>> 7) &&& 1) == 1

/-- csd_ra2.c:44-58 `osmo_csd_ra2_16k_pack`, loop over the output octets, `i` = input index. -/
def pack16From (bits : List Bool) (i : Nat) : Nat → M (List Byte)
  | 0 => .ok []
  | n + 1 => do
    let b0 ← rd bits i
    let b1 ← rd bits (i + 1)
    let rest ← pack16From bits (i + 2) n
    .ok (((0x3F ||| (u8 b0 <<< 7)) ||| (u8 b1 <<< 6)) :: rest)

/-- csd_ra2.c:44-58 -/
def pack16 (bits : List Bool) (nOut : Nat) : M (List Byte) := pack16From bits 0 nOut

/-- csd_ra2.c:60-70 `osmo_csd_ra2_16k_unpack` -/
def unpack16 : List Byte → List Bool
  | [] => []
  | b :: rest => (((b >>> 7) &&& 1) == 1) :: (((b >>> 6) &&& 1) == 1) :: unpack16 rest

end Verif.Ra2
