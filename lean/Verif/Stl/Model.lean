import Verif.Vec.Model

/-!
# Model of the binary part of `volmdlr/stl.py`

A stream is a list of bytes (natural numbers below 256).  The 32-bit float format is a parameter: `enc` gives the
32-bit word written by `struct.pack('f', ·)`, `dec` the number read by `read_f4le`.  The name is its list of
UTF-8 bytes; decoding bytes to text is not modelled.  `struct` formats `80sI` and `12fH` have no padding bytes
(offsets 80 and 48 are aligned) and a little-endian machine is assumed.
-/

namespace Volmdlr

/-- A triangle as its three points. -/
abbrev Tri3 (K : Type*) := V3 K × V3 K × V3 K

/-- The 32-bit float format. -/
structure F4 (K : Type*) where
  enc : K → ℕ
  dec : ℕ → K

/-- A number that the format represents exactly. -/
def F4.Rep {K : Type*} (f : F4 K) (x : K) : Prop := f.enc x < 4294967296 ∧ f.dec (f.enc x) = x

section
variable {K : Type*} [Field K]

/-- Little-endian bytes of a 32-bit word (`I` or `f` in stl.py:262-263). -/
def u4le (n : ℕ) : List ℕ := [n % 256, n / 256 % 256, n / 65536 % 256, n / 16777216 % 256]

/-- `struct.pack('80s', name)`: truncated or padded with zeros to 80 bytes. -/
def pack80 (name : List ℕ) : List ℕ := name.take 80 ++ List.replicate (80 - name.length) 0

/-- stl.py:269-283: the 50 bytes of one triangle. -/
def packTri (f : F4 K) (mult : K) (t : Tri3 K) : List ℕ :=
  u4le (f.enc 0) ++ u4le (f.enc 0) ++ u4le (f.enc 0) ++
  u4le (f.enc (mult * t.1.x)) ++ u4le (f.enc (mult * t.1.y)) ++ u4le (f.enc (mult * t.1.z)) ++
  u4le (f.enc (mult * t.2.1.x)) ++ u4le (f.enc (mult * t.2.1.y)) ++ u4le (f.enc (mult * t.2.1.z)) ++
  u4le (f.enc (mult * t.2.2.x)) ++ u4le (f.enc (mult * t.2.2.y)) ++ u4le (f.enc (mult * t.2.2.z)) ++ [0, 0]

/-- stl.py:250-285 `save_to_stream`; `none` is the `struct.error` for a count that does not fit 32 bits. -/
def saveToStream (f : F4 K) (mult : K) (name : List ℕ) (triangles : List (Tri3 K)) : Option (List ℕ) :=
  if triangles.length < 4294967296 then
    some (pack80 name ++ u4le triangles.length ++ triangles.flatMap (packTri f mult))
  else none

/-- KaitaiStream `read_bytes(n)`; `none` is `EOFError`. -/
def readBytes (n : ℕ) (s : List ℕ) : Option (List ℕ × List ℕ) :=
  if s.length < n then none else some (s.take n, s.drop n)

/-- KaitaiStream `read_u4le`. -/
def readU4 : List ℕ → Option (ℕ × List ℕ)
  | a :: b :: c :: d :: s => some (a + 256 * b + 65536 * c + 16777216 * d, s)
  | _ => none

/-- `read_f4le` three times with the multiplier, stl.py:129-137. -/
def readV3 (f : F4 K) (mult : K) (s : List ℕ) : Option (V3 K × List ℕ) :=
  match readU4 s with
  | none => none
  | some (a, s) =>
    match readU4 s with
    | none => none
    | some (b, s) =>
      match readU4 s with
      | none => none
      | some (c, s) => some (⟨mult * f.dec a, mult * f.dec b, mult * f.dec c⟩, s)

/-- stl.py:122-144: one iteration; `accepts` is whether `Triangle3D(p1, p2, p3)` does not raise
`ZeroDivisionError` or `NotImplementedError`. -/
def readTri (f : F4 K) (mult : K) (accepts : Tri3 K → Bool) (s : List ℕ) : Option (Option (Tri3 K) × List ℕ) :=
  match readV3 f 1 s with
  | none => none
  | some (_, s) =>
    match readV3 f mult s with
    | none => none
    | some (p1, s) =>
      match readV3 f mult s with
      | none => none
      | some (p2, s) =>
        match readV3 f mult s with
        | none => none
        | some (p3, s) =>
          match readBytes 2 s with
          | none => none
          | some (_, s) => some (if accepts (p1, p2, p3) then some (p1, p2, p3) else none, s)

/-- stl.py:118-144: the loop; the list has `None` where the triangle was refused. -/
def readTris (f : F4 K) (mult : K) (accepts : Tri3 K → Bool) : ℕ → List ℕ → Option (List (Option (Tri3 K)) × List ℕ)
  | 0, s => some ([], s)
  | n + 1, s =>
    match readTri f mult accepts s with
    | none => none
    | some (t, s) =>
      match readTris f mult accepts n s with
      | none => none
      | some (l, s) => some (t :: l, s)

/-- stl.py:119, 139-142 `invalid_triangles`: the indices, starting at `i`, of the refused triangles. -/
def invalidIdx {α : Type*} : List (Option α) → ℕ → List ℕ
  | [], _ => []
  | none :: l, i => i :: invalidIdx l (i + 1)
  | some _ :: l, i => invalidIdx l (i + 1)

/-- stl.py:146-149: `for i in invalid_triangles[::-1]: del triangles[i]`. -/
def deleteInvalid {α : Type*} (l : List (Option α)) : List (Option α) :=
  (invalidIdx l 0).reverse.foldl (fun l i => l.eraseIdx i) l

/-- stl.py:98-151 `from_binary_stream`: name bytes and triangles. -/
def fromBinaryStream (f : F4 K) (mult : K) (accepts : Tri3 K → Bool) (s : List ℕ) :
    Option (List ℕ × List (Option (Tri3 K))) :=
  match readBytes 80 s with
  | none => none
  | some (name, s) =>
    match readU4 s with
    | none => none
    | some (n, s) =>
      match readTris f mult accepts n s with
      | none => none
      | some (l, _) => some (name, deleteInvalid l)

end
end Volmdlr
