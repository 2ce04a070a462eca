import Verif.Model.Base

/-!
# Model of `src/rbus/rbus_buffer.c`
-/

namespace Verif.Buffer

open Verif

/-- `struct _rbusBuffer` (include/rbus_buffer.h:29-36). `data` holds the bytes written so far, so
`posWrite = data.length`; `alloc` is `lenAlloc`; `rd` is `posRead`. Bytes of the allocation that
were never written are uninitialised and not represented. The switch between the inline block and
the heap (`block1`) is not represented: it does not change the contents. -/
structure Buf where
  data : Bytes
  alloc : Nat
  rd : Nat
  deriving DecidableEq, Repr

/-- `BUFFER_BLOCK_SIZE` (rbus_buffer.c:30). -/
def blockSize : Nat := 64

/-- `rbusBuffer_Create` (rbus_buffer.c:87-94). -/
def create : Buf := { data := [], alloc := blockSize, rd := 0 }

/-- `rbusBuffer_Reserve` (rbus_buffer.c:116-135). `int` overflow of `posWrite+len` is not modelled
(sizes are unbounded naturals). -/
def reserve (b : Buf) (len : Nat) : Buf :=
  let posNext := b.data.length + len
  if posNext > b.alloc then
    { b with alloc := (posNext / blockSize + 1) * blockSize }
  else b

/-- `rbusBuffer_Write` (rbus_buffer.c:107-114): reserve, `memcpy`, advance. The source pointer is
not NULL. -/
def write (b : Buf) (bs : Bytes) : Buf :=
  let b' := reserve b bs.length
  { b' with data := b'.data ++ bs }

/-- `rbusBuffer_WriteTypeLengthValue` (rbus_buffer.c:137-148). The length parameter is `uint16_t`,
so the caller's `int` is reduced modulo 65536, and that many bytes of the value are written. -/
def writeTLV (b : Buf) (type : Nat) (len : Nat) (value : Bytes) : Buf :=
  let length := len % 65536
  let b1 := write b (leBytes 2 type)
  let b2 := write b1 (leBytes 2 length)
  write b2 (value.take length)

/-- `rbusBuffer_Read` (rbus_buffer.c:256-268). The check at line 260 is strict and against
`lenAlloc`; bytes beyond `posWrite` are uninitialised, so copying them is `ub`. -/
def read (b : Buf) (len : Nat) : Res (Bytes × Buf) :=
  if b.rd + len < b.alloc then
    if b.rd + len ≤ b.data.length then
      .ok ((b.data.drop b.rd).take len, { b with rd := b.rd + len })
    else .ub
  else .fail

/-- `rbusBuffer_ReadUInt16`, `...32`, `...64` and the signed, `float` and `double` versions
(rbus_buffer.c:279-369): read `k` bytes and convert from little-endian. On failure the C code
stores an uninitialised temporary and returns an error; only the error is modelled. -/
def readLE (b : Buf) (k : Nat) : Res (Nat × Buf) := do
  let (bs, b') ← read b k
  pure (leNat bs, b')

end Verif.Buffer
