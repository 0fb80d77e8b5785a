/-
Rust slices and iterator chains as list functions.

A `&mut [T]` argument becomes a list argument plus a list result. A slice access that
panics in Rust becomes `none`.
-/

namespace PicScale

/-- Rust `&l[a..b]`: panics (here `none`) unless `a ≤ b ≤ l.len()`.
Used wherever the code slices, e.g. `fixed_point_horizontal.rs:77`. -/
def slice? {α : Type _} (l : List α) (a b : Nat) : Option (List α) :=
  if a ≤ b ∧ b ≤ l.length then some ((l.drop a).take (b - a)) else none

/-- Rust `l.chunks_exact(n)` collected: the `l.len() / n` full chunks, in order.
(Rust panics for `n = 0`; here the result is empty. Every use has `n > 0`.) -/
def chunksExact {α : Type _} (n : Nat) (l : List α) : List (List α) :=
  (List.range (l.length / n)).map fun i => (l.drop (i * n)).take n

/-- Rust `l.chunks_exact(n).remainder()` / `into_remainder()`. -/
def chunksRemainder {α : Type _} (n : Nat) (l : List α) : List α :=
  l.drop (l.length / n * n)

/-- Rust `for (chunk, x) in buf.chunks_exact_mut(n).zip(xs) { *chunk = f(chunk, x) }`:
stops at the shorter of the two iterators; a panic inside `f` is `none`; whatever is not
visited keeps its value. -/
def updChunks {α β : Type _} (n : Nat) (f : List α → β → Option (List α)) :
    List α → List β → Option (List α)
  | buf, [] => some buf
  | buf, x :: xs =>
    if buf.length < n then some buf
    else do
      let c ← f (buf.take n) x
      let r ← updChunks n f (buf.drop n) xs
      some (c ++ r)

/-- Rust `for (src, dst) in src_row.iter().zip(dst_row.iter_mut()) { *dst = *src }`. -/
def overwrite {α : Type _} : List α → List α → List α
  | s :: ss, _ :: ds => s :: overwrite ss ds
  | [], ds => ds
  | _, [] => []

/-- Rust `l[a..a + vals.len()].copy_from_slice(vals)` where in range: replace the elements of
`l` starting at `a` by `vals`; panics (here `none`) when it does not fit. -/
def writeAt? {α : Type _} (l : List α) (a : Nat) (vals : List α) : Option (List α) :=
  if a + vals.length ≤ l.length then
    some (l.take a ++ vals ++ l.drop (a + vals.length))
  else none

end PicScale
