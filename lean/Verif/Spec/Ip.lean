import Verif.Basic.Str

/-!
# IP addresses as Rust's standard library reads and writes them

`core/src/net/parser.rs` and `core/src/net/ip_addr.rs` of the standard library, which serde uses for human readable
formats.
-/

namespace Verif.Spec
open Verif

/-- `Display` of `Ipv4Addr`. `FromStr` accepts exactly these texts (no leading zeros). -/
def dotted (a b c d : Fin 256) : Str :=
  (Nat.repr a).toList ++ lit "." ++ (Nat.repr b).toList ++ lit "." ++ (Nat.repr c).toList ++ lit "." ++
    (Nat.repr d).toList

/-- A hexadecimal digit, as `char::to_digit(16)` reads it. -/
def IsHex (c : Char) : Prop := ('0' ≤ c ∧ c ≤ '9') ∨ ('a' ≤ c ∧ c ≤ 'f') ∨ ('A' ≤ c ∧ c ≤ 'F')

/-- A group of an IPv6 address: one to four hexadecimal digits. -/
def IsGroup (g : Str) : Prop := 1 ≤ g.length ∧ g.length ≤ 4 ∧ ∀ c ∈ g, IsHex c

/-- Groups, with `:` in between. -/
def joinColon : List Str → Str
  | [] => []
  | [g] => g
  | g :: gs => g ++ lit ":" ++ joinColon gs

/-- A text of `n` groups; an IPv4 address may stand for the last two. -/
def Groups (n : Nat) (s : Str) : Prop :=
  (∃ gs : List Str, (∀ g ∈ gs, IsGroup g) ∧ gs.length = n ∧ s = joinColon gs) ∨
  (∃ (gs : List Str) (a b c d : Fin 256), (∀ g ∈ gs, IsGroup g) ∧ gs.length + 2 = n ∧ s = joinColon (gs ++ [dotted a b c d]))

/-- `FromStr` of `Ipv6Addr` succeeds: eight groups, or at most seven with `::` in one place. An IPv4 address can only be
at the end. -/
def V6Text (s : Str) : Prop :=
  Groups 8 s ∨ ∃ (gs : List Str) (n : Nat) (t : Str), (∀ g ∈ gs, IsGroup g) ∧ gs.length + n ≤ 7 ∧ Groups n t ∧
    s = joinColon gs ++ lit "::" ++ t

/-- A digit of a number written with `{:x}`. -/
def hexChar (n : Nat) : Char := (lit "0123456789abcdef").getD n '0'

/-- `{:x}` of a 16 bit number. -/
def hex16 (n : Fin 65536) : Str :=
  if n.val < 16 then [hexChar n.val]
  else if n.val < 256 then [hexChar (n.val / 16), hexChar (n.val % 16)]
  else if n.val < 4096 then [hexChar (n.val / 256), hexChar (n.val / 16 % 16), hexChar (n.val % 16)]
  else [hexChar (n.val / 4096), hexChar (n.val / 256 % 16), hexChar (n.val / 16 % 16), hexChar (n.val % 16)]

/-- The first longest run of zeros: where it begins and how long it is. `i`: the current index; `cs`, `cl`: the
current run; `ls`, `ll`: the longest one so far. -/
def longestRun : List (Fin 65536) → (i cs cl ls ll : Nat) → Nat × Nat
  | [], _, _, _, ls, ll => (ls, ll)
  | x :: xs, i, cs, cl, ls, ll =>
    if x = 0 then
      let cs := if cl = 0 then i else cs
      let cl := cl + 1
      if ll < cl then longestRun xs (i + 1) cs cl cs cl else longestRun xs (i + 1) cs cl ls ll
    else longestRun xs (i + 1) 0 0 ls ll

/-- The four numbers of the last two segments. -/
def lastDotted (x y : Fin 65536) : Str :=
  dotted ⟨x.val / 256, by omega⟩ ⟨x.val % 256, by omega⟩ ⟨y.val / 256, by omega⟩ ⟨y.val % 256, by omega⟩

/-- `Display` of `Ipv6Addr`, for an address of eight segments. Before Rust 1.72 (`old`) addresses that begin with six
zero segments were also written with an IPv4 address, except `::` and `::1`. -/
def showV6 (old : Bool) (g : List (Fin 65536)) : Str :=
  match g with
  | [0, 0, 0, 0, 0, 0xffff, x, y] => lit "::ffff:" ++ lastDotted x y
  | g =>
    match old, g with
    | true, [0, 0, 0, 0, 0, 0, x, y] =>
      if x = 0 ∧ y = 0 then lit "::" else if x = 0 ∧ y = 1 then lit "::1" else lit "::" ++ lastDotted x y
    | _, g =>
      let r := longestRun g 0 0 0 0 0
      if 1 < r.2 then joinColon ((g.take r.1).map hex16) ++ lit "::" ++ joinColon ((g.drop (r.1 + r.2)).map hex16)
      else joinColon (g.map hex16)

example : showV6 false [0x2001, 0xdb8, 0, 0, 0, 0x8a2e, 0x370, 0x7334] = lit "2001:db8::8a2e:370:7334" := by decide +kernel
example : showV6 false [0, 0, 0, 0, 0, 0, 0, 0] = lit "::" := by decide +kernel
example : showV6 false [0xfe80, 0, 0, 0, 0, 0, 0, 0] = lit "fe80::" := by decide +kernel
example : showV6 true [0, 0, 0, 0, 0, 0, 0, 1] = lit "::1" := by decide +kernel
example : showV6 false [0, 0, 0, 0, 0, 0xffff, 0xc0a8, 1] = lit "::ffff:192.168.0.1" := by decide +kernel
example : showV6 false [1, 0, 0, 2, 0, 0, 3, 4] = lit "1::2:0:0:3:4" := by decide +kernel
example : showV6 false [1, 0, 2, 3, 4, 5, 6, 7] = lit "1:0:2:3:4:5:6:7" := by decide +kernel

end Verif.Spec
