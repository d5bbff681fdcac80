/-! # Model of the CRC64 checksum, `src/CRC32.cpp` -/
namespace Riptide.Crc

abbrev Byte := BitVec 8
abbrev W64 := BitVec 64

/-- The ISO polynomial, line 13. -/
def ISO : W64 := 0xD800000000000000#64
/-- The ECMA polynomial, line 16. -/
def ECMA : W64 := 0xC96C5795D7870F42#64

/-- One iteration of the inner loop of `makeTable`, lines 27-30. -/
def bitStep (poly crc : W64) : W64 :=
  if crc &&& 1#64 = 1#64 then (crc >>> 1) ^^^ poly else crc >>> 1

/-- `for (int j = 0; j < n; j++)` around `bitStep`, line 25. -/
def bitSteps (poly : W64) : Nat → W64 → W64
  | 0, c => c
  | n + 1, c => bitSteps poly n (bitStep poly c)

/-- `makeTable`, lines 19-37. -/
def makeTable (poly : W64) : Array W64 :=
  Array.ofFn (n := 256) fun i => bitSteps poly 8 (BitVec.ofNat 64 i)

/-- Table lookup by a byte; the index is always below 256. -/
def look (t : Array W64) (i : Byte) : W64 := t[i.toNat]?.getD 0#64

/-- `x & 0xff` (also `(uint8_t)x`). -/
def lowByte (x : W64) : Byte := x.truncate 8

/-- The `j` loop of `makeSlicingBy8Table`, lines 57-62, run `j` times from `t[i]`. -/
def slice (t : Array W64) (i : Byte) : Nat → W64
  | 0 => look t i
  | j + 1 => let crc := slice t i j; look t (lowByte crc) ^^^ (crc >>> 8)

/-- `makeSlicingBy8Table`, lines 51-66: `helperTable[j][i]`. -/
def makeSlicing (t : Array W64) : Array (Array W64) :=
  Array.ofFn (n := 8) fun j => Array.ofFn (n := 256) fun i => slice t (BitVec.ofNat 8 i) j

/-- `helperTable[j][i]`. -/
def look2 (h : Array (Array W64)) (j : Nat) (i : Byte) : W64 := look (h[j]?.getD #[]) i

/-- `((uint64_t)p[0]) | ((uint64_t)p[1]) << 8 | …`, lines 90-91. -/
def word (p0 p1 p2 p3 p4 p5 p6 p7 : Byte) : W64 :=
  p0.zeroExtend 64 ||| p1.zeroExtend 64 <<< 8 ||| p2.zeroExtend 64 <<< 16 |||
  p3.zeroExtend 64 <<< 24 ||| p4.zeroExtend 64 <<< 32 ||| p5.zeroExtend 64 <<< 40 |||
  p6.zeroExtend 64 <<< 48 ||| p7.zeroExtend 64 <<< 56

/-- Lines 90-94: one slicing-by-8 step. -/
def step8 (h : Array (Array W64)) (crc : W64) (p0 p1 p2 p3 p4 p5 p6 p7 : Byte) : W64 :=
  let crc := crc ^^^ word p0 p1 p2 p3 p4 p5 p6 p7
  look2 h 7 (lowByte crc) ^^^ look2 h 6 (lowByte (crc >>> 8)) ^^^
  look2 h 5 (lowByte (crc >>> 16)) ^^^ look2 h 4 (lowByte (crc >>> 24)) ^^^
  look2 h 3 (lowByte (crc >>> 32)) ^^^ look2 h 2 (lowByte (crc >>> 40)) ^^^
  look2 h 1 (lowByte (crc >>> 48)) ^^^ look2 h 0 (lowByte (crc >>> 56))

/-- `while (Length >= 8)`, lines 87-98: the crc and the remaining bytes. -/
def loop8 (h : Array (Array W64)) (crc : W64) : List Byte → W64 × List Byte
  | p0 :: p1 :: p2 :: p3 :: p4 :: p5 :: p6 :: p7 :: rest =>
    loop8 h (step8 h crc p0 p1 p2 p3 p4 p5 p6 p7) rest
  | rest => (crc, rest)

/-- `while (p < pEnd)`, lines 102-106. -/
def tail (t : Array W64) (crc : W64) (l : List Byte) : W64 :=
  l.foldl (fun crc b => look t (lowByte crc ^^^ b) ^^^ (crc >>> 8)) crc

/-- `CalculateCRC64`, lines 73-109, for a table made by `makeTable poly` and its slicing tables
(the pointer test selecting the helper table, lines 80-85, picks the table matching `tab`).
The outer `while (Length >= 64)` runs at most once because the inner loop leaves fewer than 8
bytes. -/
def calculateCRC64 (poly crc : W64) (p : List Byte) : W64 :=
  let t := makeTable poly
  let crc := ~~~crc
  if p.length ≥ 64 then
    let r := loop8 (makeSlicing t) crc p
    ~~~(tail t r.1 r.2)
  else ~~~(tail t crc p)

/-- `CalculateCRC`, lines 114-136: the checksum of the bytes of a contiguous array. -/
def calculateCRC (p : List Byte) : W64 := calculateCRC64 ECMA 0#64 p

end Riptide.Crc
