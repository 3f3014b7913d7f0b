set_option autoImplicit false

/-!
# Specification of GPGGA sentences

Written from the NMEA 0183 description, over lists of bytes and natural numbers.
-/

namespace Verif.NmeaSpec

/-- Decimal digit. -/
def IsDigit (c : UInt8) : Prop := 48 ≤ c.toNat ∧ c.toNat ≤ 57

instance (c : UInt8) : Decidable (IsDigit c) := inferInstanceAs (Decidable (_ ∧ _))

/-- Value of a decimal digit. -/
def dig (c : UInt8) : Nat := c.toNat - 48

/-- Value of a string of decimal digits. -/
def natVal (l : List UInt8) : Nat := l.foldl (fun v c => 10 * v + dig c) 0

/-- Value of a hexadecimal digit. -/
def hexVal (c : UInt8) : Option Nat :=
  if 48 ≤ c.toNat ∧ c.toNat ≤ 57 then some (c.toNat - 48)
  else if 65 ≤ c.toNat ∧ c.toNat ≤ 70 then some (c.toNat - 55)
  else if 97 ≤ c.toNat ∧ c.toNat ≤ 102 then some (c.toNat - 87)
  else none

/-- A time field `hhmmss` or `hhmmss.sss`: hours, minutes, seconds, milliseconds. -/
def timeOf (l : List UInt8) : Option (Nat × Nat × Nat × Nat) :=
  match l with
  | [a, b, c, d, e, f] =>
    if ∀ x ∈ l, IsDigit x then some (natVal [a, b], natVal [c, d], natVal [e, f], 0) else none
  | [a, b, c, d, e, f, p, g, h, i] =>
    if (∀ x ∈ [a, b, c, d, e, f, g, h, i], IsDigit x) ∧ p = 46 then
      some (natVal [a, b], natVal [c, d], natVal [e, f], natVal [g, h, i])
    else none
  | _ => none

/-- XOR of bytes. -/
def xorAll (l : List UInt8) : UInt8 := l.foldl (· ^^^ ·) 0

/-- `m` is `$ body * HH CR LF` with `HH` the XOR of the body in hexadecimal. -/
def Sentence (body m : List UInt8) : Prop :=
  ∃ k1 k0 v1 v0, m = [36] ++ body ++ [42, k1, k0, 13, 10] ∧
    hexVal k1 = some v1 ∧ hexVal k0 = some v0 ∧ v1 * 16 + v0 = (xorAll body).toNat

/-- Fields separated by commas. -/
def join : List (List UInt8) → List UInt8
  | [] => []
  | [f] => f
  | f :: g :: fs => f ++ 44 :: join (g :: fs)

/-- "GPGGA," -/
def talker : List UInt8 := [71, 80, 71, 71, 65, 44]

/-- Contents of a GPGGA sentence. `unused`: dilution, altitude, unit, separation,
unit; `more`: what may follow (age of correction, station). -/
structure Fix where
  time : List UInt8
  lat : List UInt8
  ns : UInt8
  lon : List UInt8
  ew : UInt8
  fix : UInt8
  sats : List UInt8
  unused : List (List UInt8)
  more : List (List UInt8)

/-- The fields in order. -/
def Fix.fields (x : Fix) : List (List UInt8) :=
  [x.time, x.lat, [x.ns], x.lon, [x.ew], [x.fix], x.sats] ++ x.unused ++ x.more

/-- The body of the sentence. -/
def Fix.body (x : Fix) : List UInt8 := talker ++ join x.fields

/-- A position string: 1 to 10 non-NUL characters. -/
def PosText (l : List UInt8) : Prop := 1 ≤ l.length ∧ l.length ≤ 10 ∧ ∀ c ∈ l, c ≠ 0

/-- A well-formed fix. Fields are below 128 characters and contain neither `,` nor
`*`. -/
structure Fix.Ok (x : Fix) : Prop where
  time : (timeOf x.time).isSome
  lat : PosText x.lat
  ns : x.ns = 78 ∨ x.ns = 83
  lon : PosText x.lon
  ew : x.ew = 69 ∨ x.ew = 87
  fix : IsDigit x.fix
  sats : 1 ≤ x.sats.length ∧ (∀ c ∈ x.sats, IsDigit c) ∧ natVal x.sats < 256
  five : x.unused.length = 5
  present : ∀ f ∈ x.unused, 1 ≤ f.length
  short : ∀ f ∈ x.fields, f.length < 128
  clean : ∀ f ∈ x.fields, ∀ c ∈ f, c ≠ 44 ∧ c ≠ 42

end Verif.NmeaSpec
