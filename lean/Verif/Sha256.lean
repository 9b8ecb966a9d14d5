import Verif.Golden
/-!
# Names of vector files

`sha256namer` (tv/corpus.go:73-77) with `crypto/sha256` and `encoding/hex` of the standard library, written from FIPS 180-4. The theorems
about the effects of the tool hold for any function in its place; this one is for comparing the names of files in the repository.
-/
namespace Verif.Sha256

/-- FIPS 180-4, 4.2.2 (behind tv/corpus.go:75). -/
def roundConsts : List Nat := [
  0x428a2f98, 0x71374491, 0xb5c0fbcf, 0xe9b5dba5, 0x3956c25b, 0x59f111f1, 0x923f82a4, 0xab1c5ed5,
  0xd807aa98, 0x12835b01, 0x243185be, 0x550c7dc3, 0x72be5d74, 0x80deb1fe, 0x9bdc06a7, 0xc19bf174,
  0xe49b69c1, 0xefbe4786, 0x0fc19dc6, 0x240ca1cc, 0x2de92c6f, 0x4a7484aa, 0x5cb0a9dc, 0x76f988da,
  0x983e5152, 0xa831c66d, 0xb00327c8, 0xbf597fc7, 0xc6e00bf3, 0xd5a79147, 0x06ca6351, 0x14292967,
  0x27b70a85, 0x2e1b2138, 0x4d2c6dfc, 0x53380d13, 0x650a7354, 0x766a0abb, 0x81c2c92e, 0x92722c85,
  0xa2bfe8a1, 0xa81a664b, 0xc24b8b70, 0xc76c51a3, 0xd192e819, 0xd6990624, 0xf40e3585, 0x106aa070,
  0x19a4c116, 0x1e376c08, 0x2748774c, 0x34b0bcb5, 0x391c0cb3, 0x4ed8aa4a, 0x5b9cca4f, 0x682e6ff3,
  0x748f82ee, 0x78a5636f, 0x84c87814, 0x8cc70208, 0x90befffa, 0xa4506ceb, 0xbef9a3f7, 0xc67178f2]

/-- FIPS 180-4, 5.3.3 (behind tv/corpus.go:75). -/
def initial : List Nat := [0x6a09e667, 0xbb67ae85, 0x3c6ef372, 0xa54ff53a, 0x510e527f, 0x9b05688c, 0x1f83d9ab, 0x5be0cd19]

/-- Sum modulo `2^32` (behind tv/corpus.go:75). -/
def add (a b : Nat) : Nat := (a + b) % 2 ^ 32

/-- Rotation to the right (behind tv/corpus.go:75). -/
def rotr (n x : Nat) : Nat := ((x >>> n) ||| (x <<< (32 - n))) % 2 ^ 32

/-- Big-endian words of four bytes (behind tv/corpus.go:75). -/
def words : List UInt8 → List Nat
  | a :: b :: c :: d :: bs => (((a.toNat * 256 + b.toNat) * 256 + c.toNat) * 256 + d.toNat) :: words bs
  | _ => []

/-- The message schedule: the words so far with the last first, extended by `n` words (behind tv/corpus.go:75). -/
def schedule : Nat → List Nat → List Nat
  | 0, ws => ws
  | n + 1, ws =>
    let w15 := ws.getD 14 0
    let w2 := ws.getD 1 0
    let s0 := rotr 7 w15 ^^^ rotr 18 w15 ^^^ (w15 >>> 3)
    let s1 := rotr 17 w2 ^^^ rotr 19 w2 ^^^ (w2 >>> 10)
    schedule n (add (add (ws.getD 15 0) s0) (add (ws.getD 6 0) s1) :: ws)

/-- The rounds on one block, for the words and constants left (behind tv/corpus.go:75). -/
def rounds : List (Nat × Nat) → List Nat → List Nat
  | (k, w) :: rest, [a, b, c, d, e, f, g, h] =>
    let s1 := rotr 6 e ^^^ rotr 11 e ^^^ rotr 25 e
    let ch := (e &&& f) ^^^ ((2 ^ 32 - 1 - e) &&& g)
    let t1 := add (add (add h s1) (add ch k)) w
    let s0 := rotr 2 a ^^^ rotr 13 a ^^^ rotr 22 a
    let maj := (a &&& b) ^^^ (a &&& c) ^^^ (b &&& c)
    rounds rest [add t1 (add s0 maj), a, b, c, add d t1, e, f, g]
  | _, s => s

/-- One block of sixteen words (behind tv/corpus.go:75). -/
def block (s ws : List Nat) : List Nat :=
  List.zipWith add s (rounds (roundConsts.zip (schedule 48 ws.reverse).reverse) s)

/-- All blocks, at most `n` (behind tv/corpus.go:75). -/
def blocks : Nat → List Nat → List Nat → List Nat
  | 0, s, _ => s
  | n + 1, s, ws => if ws.isEmpty then s else blocks n (block s (ws.take 16)) (ws.drop 16)

/-- Big-endian bytes (behind tv/corpus.go:75). -/
def be (n x : Nat) : List UInt8 := (List.range n).reverse.map fun i => UInt8.ofNat (x >>> (8 * i) % 256)

/-- Padding to whole blocks (behind tv/corpus.go:75). -/
def pad (b : List UInt8) : List UInt8 :=
  b ++ [0x80] ++ List.replicate ((119 - b.length % 64) % 64) 0 ++ be 8 (8 * b.length)

/-- `sha256.Sum256` (tv/corpus.go:75). -/
def sum256 (b : List UInt8) : List UInt8 :=
  let ws := words (pad b)
  (blocks (ws.length / 16) initial ws).flatMap (be 4)

/-- A hexadecimal digit (behind tv/corpus.go:76). -/
def digit (n : Nat) : Char := if n < 10 then Char.ofNat (48 + n) else Char.ofNat (87 + n)

/-- `sha256namer` (tv/corpus.go:73-77). -/
def sha256namer (b : List UInt8) : String :=
  String.ofList ((sum256 b).flatMap fun x => [digit (x.toNat / 16), digit (x.toNat % 16)])

end Verif.Sha256
