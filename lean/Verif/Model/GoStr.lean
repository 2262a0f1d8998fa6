/-
  Go string primitives used by semnet.

  A Go `string` is an arbitrary byte sequence (not necessarily valid UTF-8), so it is modelled as
  `List UInt8`.  A Go `rune` is an `int32`, modelled as an `Int`.

  These definitions model *language / standard library* behaviour the repository relies on:
  `[]rune(s)`, `string(runes)`, `strings.Split(s, " ")`, `strings.Join(p, " ")`, `fmt.Sprintf("%b", r)`.
-/
namespace Semnet

/-- A Go `string`: a byte sequence (the texts of `graph.go:43-61`). -/
abbrev GoStr := List UInt8

/-- A Go `rune` (`int32`). The int32 range is not enforced by the type; operations that can wrap
    (`internal/concrete/character/aggragate.go:66-73`) wrap explicitly, see `i32`. -/
abbrev Rune := Int

/-- int32 wrap-around (two's complement), Go spec "Integer overflow"; at `internal/concrete/character/aggragate.go:66-73`. -/
def i32 (x : Int) : Int := Int.bmod x (2 ^ 32)

/-- U+FFFD, the replacement rune (`utf8.RuneError`). -/
def runeError : Int := 0xFFFD

/-- `lo ≤ b ≤ hi` on bytes. -/
def inRange (lo hi : Nat) (b : UInt8) : Bool := lo ≤ b.toNat && b.toNat ≤ hi

/-- Go's `utf8.DecodeRune`, the decoder behind `[]rune(s)` used at
    `internal/concrete/word/paths.go:23`.  Returns the rune and its width; an invalid sequence yields
    `(U+FFFD, 1)`.  Ranges are those of the Go standard library's `acceptRanges` table. -/
def decodeRune : List UInt8 → Int × Nat
  | [] => (runeError, 0)
  | b0 :: t =>
    let x := b0.toNat
    if x < 0x80 then ((x : Int), 1)
    else if x < 0xC2 then (runeError, 1)
    else if x < 0xE0 then
      match t with
      | b1 :: _ =>
        if inRange 0x80 0xBF b1 then (((x - 0xC0) * 64 + (b1.toNat - 0x80) : Nat), 2)
        else (runeError, 1)
      | _ => (runeError, 1)
    else if x < 0xF0 then
      match t with
      | b1 :: b2 :: _ =>
        if inRange (if x = 0xE0 then 0xA0 else 0x80) (if x = 0xED then 0x9F else 0xBF) b1
            && inRange 0x80 0xBF b2 then
          (((x - 0xE0) * 4096 + (b1.toNat - 0x80) * 64 + (b2.toNat - 0x80) : Nat), 3)
        else (runeError, 1)
      | _ => (runeError, 1)
    else if x < 0xF5 then
      match t with
      | b1 :: b2 :: b3 :: _ =>
        if inRange (if x = 0xF0 then 0x90 else 0x80) (if x = 0xF4 then 0x8F else 0xBF) b1
            && inRange 0x80 0xBF b2 && inRange 0x80 0xBF b3 then
          (((x - 0xF0) * 262144 + (b1.toNat - 0x80) * 4096 + (b2.toNat - 0x80) * 64
              + (b3.toNat - 0x80) : Nat), 4)
        else (runeError, 1)
      | _ => (runeError, 1)
    else (runeError, 1)

/-- The decoding loop of `[]rune(s)` (`internal/concrete/word/paths.go:23`); the first argument is a step budget, `s.length` always suffices
    because every rune consumes at least one byte. -/
def decodeRunes : Nat → List UInt8 → List Int
  | 0, _ => []
  | _ + 1, [] => []
  | n + 1, b :: t =>
    (decodeRune (b :: t)).1 :: decodeRunes n ((b :: t).drop (decodeRune (b :: t)).2)

/-- Go conversion `[]rune(s)` (`internal/concrete/word/paths.go:23`). -/
def runesOf (s : GoStr) : List Int := decodeRunes s.length s

/-- UTF-8 encoding of one non-negative in-range rune (Go's `utf8.EncodeRune`, behind `internal/concrete/word/path.go:17`). -/
def encodeNat (n : Nat) : List UInt8 :=
  if n < 0x80 then [UInt8.ofNat n]
  else if n < 0x800 then [UInt8.ofNat (0xC0 + n / 64), UInt8.ofNat (0x80 + n % 64)]
  else if n < 0x10000 then
    [UInt8.ofNat (0xE0 + n / 4096), UInt8.ofNat (0x80 + n / 64 % 64), UInt8.ofNat (0x80 + n % 64)]
  else
    [UInt8.ofNat (0xF0 + n / 262144), UInt8.ofNat (0x80 + n / 4096 % 64),
     UInt8.ofNat (0x80 + n / 64 % 64), UInt8.ofNat (0x80 + n % 64)]

/-- A rune Go encodes as itself: in range and not a surrogate. -/
def validRune (r : Int) : Bool :=
  0 ≤ r && (r < 0xD800 || 0xE000 ≤ r) && r ≤ 0x10FFFF

/-- Go's `utf8.AppendRune` (behind `internal/concrete/word/path.go:17`): invalid runes are encoded as U+FFFD. -/
def encodeRune (r : Int) : List UInt8 :=
  if validRune r then encodeNat r.toNat else encodeNat runeError.toNat

/-- Go conversion `string(runes)` (`internal/concrete/word/path.go:17`). -/
def stringOf (rs : List Int) : GoStr := rs.flatMap encodeRune

/-- The byte `' '` (`internal/concrete/phrase/paths.go:24`). -/
def spaceByte : UInt8 := 0x20

/-- `strings.Split(s, " ")` (`internal/concrete/phrase/paths.go:24`).  Never returns an empty slice;
    `Split("", " ")` is `[""]`. -/
def splitSpace : GoStr → List GoStr
  | [] => [[]]
  | b :: t =>
    match splitSpace t with
    | [] => [[b]]            -- unreachable: `splitSpace` is never empty
    | w :: ws => if b = spaceByte then [] :: w :: ws else (b :: w) :: ws

/-- `strings.Join(p, " ")` (`internal/concrete/phrase/path.go:19`). -/
def joinSpace : List GoStr → GoStr
  | [] => []
  | [w] => w
  | w :: v :: ws => w ++ spaceByte :: joinSpace (v :: ws)

/-- Binary digits (`%b`, `internal/concrete/character/paths.go:23`), most significant first; `[false]` for 0.  First argument is a step budget
    (`n` itself always suffices). -/
def binDigits : Nat → Nat → List Bool
  | 0, n => [n % 2 == 1]
  | f + 1, n => if n < 2 then [n == 1] else binDigits f (n / 2) ++ [n % 2 == 1]

/-- `fmt.Sprintf("%b", r)` for an `int32` (`internal/concrete/character/paths.go:23`). -/
def sprintfB (r : Int) : List Char :=
  (if r < 0 then ['-'] else []) ++ (binDigits r.natAbs r.natAbs).map (fun b => if b then '1' else '0')

end Semnet
