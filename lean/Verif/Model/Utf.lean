import Verif.Basic.Bytes
/-
The GLib text conversions the writer and the reader rely on: g_utf8_validate,
g_utf8_strlen, g_utf8_to_utf16 (gbinder_writer.c:513,522,532) and
g_utf16_to_utf8 (gbinder_reader.c:698).  GLib is not part of /repo; these
definitions follow its documentation: RFC 3629 UTF-8 (no overlong forms, no
surrogates, nothing above U+10FFFF), NUL terminates the text.
UTF-16 code units are `Nat`s below 65536, code points are `Nat`s.
-/
set_option autoImplicit false

namespace Gb

/-- A continuation byte 10xxxxxx. -/
def isCont (b : Byte) : Bool := 0x80 ≤ b.toNat && b.toNat ≤ 0xbf

/-- Tail of a two-byte sequence 110xxxxx 10xxxxxx. -/
def utf8Tail2 (x0 : Nat) : Bytes → Option (Nat × Bytes)
  | b1 :: r =>
    if isCont b1 then some ((x0 - 0xc0) * 64 + (b1.toNat - 0x80), r) else none
  | _ => none

/-- Tail of a three-byte sequence; overlong forms and surrogates are rejected
(GLib's g_utf8_to_utf16, called at gbinder_writer.c:532). -/
def utf8Tail3 (x0 : Nat) : Bytes → Option (Nat × Bytes)
  | b1 :: b2 :: r =>
    let c := (x0 - 0xe0) * 4096 + (b1.toNat - 0x80) * 64 + (b2.toNat - 0x80)
    if isCont b1 ∧ isCont b2 ∧ 0x800 ≤ c ∧ ¬ (0xd800 ≤ c ∧ c ≤ 0xdfff)
    then some (c, r) else none
  | _ => none

/-- Tail of a four-byte sequence; overlong forms and values above U+10FFFF are rejected. -/
def utf8Tail4 (x0 : Nat) : Bytes → Option (Nat × Bytes)
  | b1 :: b2 :: b3 :: r =>
    let c := (x0 - 0xf0) * 262144 + (b1.toNat - 0x80) * 4096 + (b2.toNat - 0x80) * 64 +
      (b3.toNat - 0x80)
    if isCont b1 ∧ isCont b2 ∧ isCont b3 ∧ 0x10000 ≤ c ∧ c ≤ 0x10ffff
    then some (c, r) else none
  | _ => none

/-- One step of `g_utf8_validate` / `g_utf8_to_utf16`: decodes the first character.
`none` at the end of the text, at a NUL and at any invalid or incomplete sequence. -/
def utf8Step : Bytes → Option (Nat × Bytes)
  | [] => none
  | b0 :: r =>
    if b0.toNat = 0 then none
    else if b0.toNat < 0x80 then some (b0.toNat, r)
    else if b0.toNat < 0xc2 then none
    else if b0.toNat < 0xe0 then utf8Tail2 b0.toNat r
    else if b0.toNat < 0xf0 then utf8Tail3 b0.toNat r
    else if b0.toNat < 0xf5 then utf8Tail4 b0.toNat r
    else none

theorem utf8Tail2_length {x : Nat} {s r : Bytes} {c : Nat} (h : utf8Tail2 x s = some (c, r)) :
    r.length < s.length := by
  unfold utf8Tail2 at h
  grind

theorem utf8Tail3_length {x : Nat} {s r : Bytes} {c : Nat} (h : utf8Tail3 x s = some (c, r)) :
    r.length < s.length := by
  unfold utf8Tail3 at h
  grind

theorem utf8Tail4_length {x : Nat} {s r : Bytes} {c : Nat} (h : utf8Tail4 x s = some (c, r)) :
    r.length < s.length := by
  unfold utf8Tail4 at h
  grind

theorem utf8Step_length {s r : Bytes} {c : Nat} (h : utf8Step s = some (c, r)) :
    r.length < s.length := by
  unfold utf8Step at h
  split at h
  · cases h
  · have h2 := @utf8Tail2_length
    have h3 := @utf8Tail3_length
    have h4 := @utf8Tail4_length
    grind

/-- Code points of the longest valid prefix (up to the first NUL), i.e. what
`g_utf8_validate(str, len, &end)` accepts. -/
def utf8Decode (s : Bytes) : List Nat :=
  match _h : utf8Step s with
  | none => []
  | some (c, r) => c :: utf8Decode r
termination_by s.length
decreasing_by exact utf8Step_length _h

/-- `end - utf8` after `g_utf8_validate(utf8, num_bytes, &end)`: the number of bytes in the
longest valid prefix. gbinder_writer.c:511-514. -/
def utf8ValidLen (s : Bytes) : Nat :=
  match _h : utf8Step s with
  | none => 0
  | some (_, r) => (s.length - r.length) + utf8ValidLen r
termination_by s.length
decreasing_by exact utf8Step_length _h

/-- UTF-16 code units of one code point (`g_utf8_to_utf16`). -/
def utf16Enc1 (c : Nat) : List Nat :=
  if c < 0x10000 then [c]
  else [0xd800 + (c - 0x10000) / 0x400, 0xdc00 + (c - 0x10000) % 0x400]

/-- `g_utf8_to_utf16(utf8, num_bytes, NULL, &utf16_len, NULL)` on an already validated
prefix, gbinder_writer.c:532. -/
def utf8ToUtf16 (s : Bytes) : List Nat := (utf8Decode s).flatMap utf16Enc1

/-- UTF-8 bytes of one code point (`g_unichar_to_utf8`). -/
def utf8Enc1 (c : Nat) : Bytes :=
  if c < 0x80 then [UInt8.ofNat c]
  else if c < 0x800 then [UInt8.ofNat (0xc0 + c / 64), UInt8.ofNat (0x80 + c % 64)]
  else if c < 0x10000 then
    [UInt8.ofNat (0xe0 + c / 4096), UInt8.ofNat (0x80 + c / 64 % 64), UInt8.ofNat (0x80 + c % 64)]
  else
    [UInt8.ofNat (0xf0 + c / 262144), UInt8.ofNat (0x80 + c / 4096 % 64),
     UInt8.ofNat (0x80 + c / 64 % 64), UInt8.ofNat (0x80 + c % 64)]

/-- Code points of a UTF-16 text as seen by `g_utf16_to_utf8(str, len, NULL, NULL, NULL)`:
stops at a NUL unit; `none` for an unpaired surrogate (GLib returns NULL). -/
def utf16Decode : List Nat → Option (List Nat)
  | [] => some []
  | u :: us =>
    if u = 0 then some []
    else if 0xdc00 ≤ u ∧ u < 0xe000 then none
    else if 0xd800 ≤ u ∧ u < 0xdc00 then
      match us with
      | v :: vs =>
        if 0xdc00 ≤ v ∧ v < 0xe000 then
          (utf16Decode vs).map ((0x10000 + (u - 0xd800) * 0x400 + (v - 0xdc00)) :: ·)
        else none
      | [] => none
    else (utf16Decode us).map (u :: ·)

/-- `g_utf16_to_utf8(str, len, NULL, NULL, NULL)`, gbinder_reader.c:698. `none` is NULL. -/
def utf16ToUtf8 (us : List Nat) : Option Bytes :=
  (utf16Decode us).map (fun cs => cs.flatMap utf8Enc1)

end Gb
