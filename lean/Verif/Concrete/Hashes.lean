import Verif.Model.Crypto
/-
SHA-256 (FIPS 180-4) and RIPEMD-160: they instantiate the parameter `Crypto` in concrete cases, and C93, on the
functions of the standards, is stated with them. No other property theorem depends on this file's correctness.
-/
namespace Bit.Concrete

private def w32 (n : Nat) : Nat := n % 4294967296
private def rotr (x n : Nat) : Nat := w32 ((x >>> n) ||| (x <<< (32 - n)))
private def rotl (x n : Nat) : Nat := w32 ((x <<< n) ||| (x >>> (32 - n)))
private def not32 (x : Nat) : Nat := x ^^^ 0xffffffff

private def shaK : List Nat :=
  [0x428a2f98, 0x71374491, 0xb5c0fbcf, 0xe9b5dba5, 0x3956c25b, 0x59f111f1, 0x923f82a4,
   0xab1c5ed5, 0xd807aa98, 0x12835b01, 0x243185be, 0x550c7dc3, 0x72be5d74, 0x80deb1fe,
   0x9bdc06a7, 0xc19bf174, 0xe49b69c1, 0xefbe4786, 0xfc19dc6, 0x240ca1cc, 0x2de92c6f, 0x4a7484aa,
   0x5cb0a9dc, 0x76f988da, 0x983e5152, 0xa831c66d, 0xb00327c8, 0xbf597fc7, 0xc6e00bf3,
   0xd5a79147, 0x6ca6351, 0x14292967, 0x27b70a85, 0x2e1b2138, 0x4d2c6dfc, 0x53380d13, 0x650a7354,
   0x766a0abb, 0x81c2c92e, 0x92722c85, 0xa2bfe8a1, 0xa81a664b, 0xc24b8b70, 0xc76c51a3,
   0xd192e819, 0xd6990624, 0xf40e3585, 0x106aa070, 0x19a4c116, 0x1e376c08, 0x2748774c,
   0x34b0bcb5, 0x391c0cb3, 0x4ed8aa4a, 0x5b9cca4f, 0x682e6ff3, 0x748f82ee, 0x78a5636f,
   0x84c87814, 0x8cc70208, 0x90befffa, 0xa4506ceb, 0xbef9a3f7, 0xc67178f2]

private def shaH : List Nat :=
  [0x6a09e667, 0xbb67ae85, 0x3c6ef372, 0xa54ff53a, 0x510e527f, 0x9b05688c, 0x1f83d9ab, 0x5be0cd19]

/-- Split into blocks of `n`. -/
private def blocks {α : Type} (n : Nat) : Nat → List α → List (List α)
  | 0, _ => []
  | f + 1, l => if l.isEmpty then [] else l.take n :: blocks n f (l.drop n)

private def leVal : Bytes → Nat
  | [] => 0
  | b :: bs => b.toNat + 256 * leVal bs

private def leEnc : Nat → Nat → Bytes
  | 0, _ => []
  | k + 1, n => UInt8.ofNat (n % 256) :: leEnc k (n / 256)

private theorem leEnc_length (k n : Nat) : (leEnc k n).length = k := by
  induction k generalizing n with
  | zero => rfl
  | succ k ih => simp [leEnc, ih]

private def padTo (m : Bytes) : Bytes :=
  m ++ 0x80 :: List.replicate ((119 - m.length % 64) % 64) 0

/-- Message schedule, kept as the last 16 words, newest first. -/
private def shaNext (w : List Nat) : Nat :=
  match w with
  | w1 :: w2 :: _ :: _ :: _ :: _ :: w7 :: _ :: _ :: _ :: _ :: _ :: _ :: _ :: w15 :: w16 :: _ =>
    let s0 := rotr w15 7 ^^^ rotr w15 18 ^^^ (w15 >>> 3)
    let s1 := rotr w2 17 ^^^ rotr w2 19 ^^^ (w2 >>> 10)
    let _ := w1
    w32 (w16 + s0 + w7 + s1)
  | _ => 0

private structure S8 where
  (a b c d e f g h : Nat)

private def shaRound (s : S8) (k w : Nat) : S8 :=
  let s1 := rotr s.e 6 ^^^ rotr s.e 11 ^^^ rotr s.e 25
  let ch := (s.e &&& s.f) ^^^ (not32 s.e &&& s.g)
  let t1 := s.h + s1 + ch + k + w
  let s0 := rotr s.a 2 ^^^ rotr s.a 13 ^^^ rotr s.a 22
  let mj := (s.a &&& s.b) ^^^ (s.a &&& s.c) ^^^ (s.b &&& s.c)
  { a := w32 (t1 + s0 + mj), b := s.a, c := s.b, d := s.c,
     e := w32 (s.d + t1), f := s.e, g := s.f, h := s.g }

/-- `ws` are the remaining words of the block, `hist` the last words (newest first). -/
private def shaRounds : List Nat → List Nat → List Nat → S8 → S8
  | [], _, _, s => s
  | k :: ks, w :: ws, hist, s => shaRounds ks ws (w :: hist) (shaRound s k w)
  | k :: ks, [], hist, s =>
    let w := shaNext hist
    shaRounds ks [] ((w :: hist).take 16) (shaRound s k w)

private def shaBlock (s : S8) (block : Bytes) : S8 :=
  let ws := (blocks 4 16 block).map (fun b => leVal b.reverse)
  let r := shaRounds shaK ws [] s
  { a := w32 (s.a + r.a), b := w32 (s.b + r.b), c := w32 (s.c + r.c), d := w32 (s.d + r.d),
     e := w32 (s.e + r.e), f := w32 (s.f + r.f), g := w32 (s.g + r.g), h := w32 (s.h + r.h) }

private def be4 (n : Nat) : Bytes := (leEnc 4 n).reverse

/-- SHA-256. -/
def sha256 (m : Bytes) : Bytes :=
  let p := padTo m ++ (leEnc 8 (8 * m.length)).reverse
  let s := (blocks 64 p.length p).foldl shaBlock
    ⟨0x6a09e667, 0xbb67ae85, 0x3c6ef372, 0xa54ff53a, 0x510e527f, 0x9b05688c, 0x1f83d9ab, 0x5be0cd19⟩
  be4 s.a ++ be4 s.b ++ be4 s.c ++ be4 s.d ++ be4 s.e ++ be4 s.f ++ be4 s.g ++ be4 s.h

theorem sha256_length (m : Bytes) : (sha256 m).length = 32 := by
  simp [sha256, be4, leEnc_length]

private structure S5 where
  (a b c d e : Nat)

private def rmdF (j x y z : Nat) : Nat :=
  match j with
  | 0 => x ^^^ y ^^^ z
  | 1 => (x &&& y) ||| (not32 x &&& z)
  | 2 => (x ||| not32 y) ^^^ z
  | 3 => (x &&& z) ||| (y &&& not32 z)
  | _ => x ^^^ (y ||| not32 z)

private def rmdStep (f k x s : Nat) (v : S5) : S5 :=
  let t := w32 (rotl (w32 (v.a + rmdF f v.b v.c v.d + x + k)) s + v.e)
  { a := v.e, b := t, c := v.b, d := rotl v.c 10, e := v.d }

private def rmdR1 : List Nat :=
  [0, 1, 2, 3, 4, 5, 6, 7, 8, 9, 10, 11, 12, 13, 14, 15, 7, 4, 13, 1, 10, 6, 15, 3, 12, 0, 9, 5,
   2, 14, 11, 8, 3, 10, 14, 4, 9, 15, 8, 1, 2, 7, 0, 6, 13, 11, 5, 12, 1, 9, 11, 10, 0, 8, 12, 4,
   13, 3, 7, 15, 14, 5, 6, 2, 4, 0, 5, 9, 7, 12, 2, 10, 14, 1, 3, 8, 11, 6, 15, 13]
private def rmdR2 : List Nat :=
  [5, 14, 7, 0, 9, 2, 11, 4, 13, 6, 15, 8, 1, 10, 3, 12, 6, 11, 3, 7, 0, 13, 5, 10, 14, 15, 8,
   12, 4, 9, 1, 2, 15, 5, 1, 3, 7, 14, 6, 9, 11, 8, 12, 2, 10, 0, 4, 13, 8, 6, 4, 1, 3, 11, 15,
   0, 5, 12, 2, 13, 9, 7, 10, 14, 12, 15, 10, 4, 1, 5, 8, 7, 6, 2, 13, 14, 0, 3, 9, 11]
private def rmdS1 : List Nat :=
  [11, 14, 15, 12, 5, 8, 7, 9, 11, 13, 14, 15, 6, 7, 9, 8, 7, 6, 8, 13, 11, 9, 7, 15, 7, 12, 15,
   9, 11, 7, 13, 12, 11, 13, 6, 7, 14, 9, 13, 15, 14, 8, 13, 6, 5, 12, 7, 5, 11, 12, 14, 15, 14,
   15, 9, 8, 9, 14, 5, 6, 8, 6, 5, 12, 9, 15, 5, 11, 6, 8, 13, 12, 5, 12, 13, 14, 11, 8, 5, 6]
private def rmdS2 : List Nat :=
  [8, 9, 9, 11, 13, 15, 15, 5, 7, 7, 8, 11, 14, 14, 12, 6, 9, 13, 15, 7, 12, 8, 9, 11, 7, 7, 12,
   7, 6, 15, 13, 11, 9, 7, 15, 11, 8, 6, 6, 14, 12, 13, 5, 14, 13, 13, 7, 5, 15, 5, 8, 11, 14,
   14, 6, 14, 6, 9, 12, 9, 12, 5, 15, 8, 8, 5, 12, 9, 12, 5, 14, 6, 8, 13, 6, 5, 15, 13, 11, 11]

private def rmdK1 (j : Nat) : Nat :=
  match j with | 0 => 0 | 1 => 0x5a827999 | 2 => 0x6ed9eba1 | 3 => 0x8f1bbcdc | _ => 0xa953fd4e
private def rmdK2 (j : Nat) : Nat :=
  match j with | 0 => 0x50a28be6 | 1 => 0x5c4dd124 | 2 => 0x6d703ef3 | 3 => 0x7a6d76e9 | _ => 0

private def rmdLine (f : Nat → Nat) (k : Nat → Nat) (xs : List Nat) :
    Nat → List Nat → List Nat → S5 → S5
  | j, r :: rs, s :: ss, v =>
    rmdLine f k xs (j + 1) rs ss
      (rmdStep (f (j / 16)) (k (j / 16)) (match xs[r]? with | some x => x | none => 0) s v)
  | _, _, _, v => v

private def rmdBlock (h : S5) (block : Bytes) : S5 :=
  let xs := (blocks 4 16 block).map leVal
  let l := rmdLine id rmdK1 xs 0 rmdR1 rmdS1 h
  let r := rmdLine (fun j => 4 - j) rmdK2 xs 0 rmdR2 rmdS2 h
  { a := w32 (h.b + l.c + r.d), b := w32 (h.c + l.d + r.e), c := w32 (h.d + l.e + r.a),
     d := w32 (h.e + l.a + r.b), e := w32 (h.a + l.b + r.c) }

/-- RIPEMD-160. -/
def ripemd160 (m : Bytes) : Bytes :=
  let p := padTo m ++ leEnc 8 (8 * m.length)
  let s := (blocks 64 p.length p).foldl rmdBlock
    ⟨0x67452301, 0xefcdab89, 0x98badcfe, 0x10325476, 0xc3d2e1f0⟩
  leEnc 4 s.a ++ leEnc 4 s.b ++ leEnc 4 s.c ++ leEnc 4 s.d ++ leEnc 4 s.e

theorem ripemd160_length (m : Bytes) : (ripemd160 m).length = 20 := by
  simp [ripemd160, leEnc_length]

end Bit.Concrete

