import Verif.Model.Base
/-
`core::str::from_utf8` and `<[u8]>::is_ascii` of Rust's standard library, used by
nora_ssh_core/src/data.rs:14,64 and by every text field of the messages.
-/
namespace Nora.Utf8

/-- continuation byte `10xxxxxx` -/
def cont (b : Byte) : Bool := 0x80 ≤ b && b ≤ 0xBF

/-- `core::str::from_utf8(s).is_ok()`: the table in `core::str::validations::run_utf8_validation`:
1 byte: 00-7F; 2 bytes: C2-DF 80-BF; 3 bytes: E0 A0-BF 80-BF, E1-EC 80-BF 80-BF,
ED 80-9F 80-BF, EE-EF 80-BF 80-BF; 4 bytes: F0 90-BF .., F1-F3 80-BF .., F4 80-8F .. -/
def valid : Bytes → Bool
  | [] => true
  | a :: t =>
    if a < 0x80 then valid t
    else if 0xC2 ≤ a && a ≤ 0xDF then
      match t with
      | b :: t => cont b && valid t
      | _ => false
    else if 0xE0 ≤ a && a ≤ 0xEF then
      match t with
      | b :: c :: t =>
        ((a == 0xE0 && 0xA0 ≤ b && b ≤ 0xBF) ||
         (0xE1 ≤ a && a ≤ 0xEC && cont b) ||
         (a == 0xED && 0x80 ≤ b && b ≤ 0x9F) ||
         (0xEE ≤ a && cont b)) && cont c && valid t
      | _ => false
    else if 0xF0 ≤ a && a ≤ 0xF4 then
      match t with
      | b :: c :: d :: t =>
        ((a == 0xF0 && 0x90 ≤ b && b ≤ 0xBF) ||
         (0xF1 ≤ a && a ≤ 0xF3 && cont b) ||
         (a == 0xF4 && 0x80 ≤ b && b ≤ 0x8F)) && cont c && cont d && valid t
      | _ => false
    else false

/-- `core::str::from_utf8`; the `&str` is represented by its bytes -/
def fromUtf8 (s : Bytes) : R Unit Bytes := if valid s then .ok s else .err ()

/-- `<[u8]>::is_ascii` -/
def isAscii (s : Bytes) : Bool := s.all (fun b => b < 0x80)

end Nora.Utf8
