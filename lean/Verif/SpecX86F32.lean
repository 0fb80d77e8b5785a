import Verif.SpecFloat

/-!
The order in which the f32 handlers on x86 add up a window, as lists of taps; no code here.
-/

namespace PicScale.Spec

/-- One multiply-add of a lane: which sample of the window is multiplied with which weight. `none` stands for
a zero. -/
abbrev Tap := Option ℕ × Option ℕ

/-- Sample `k` times weight `k`. -/
def use (k : ℕ) : Tap := (some k, some k)

/-- A lane: start with zero and add the taps in order. -/
def tapSum {A : Type} (mla : A → A → A → A) (zero : A) (p w : ℕ → A) (L : List Tap) : A :=
  L.foldl (fun acc t => mla acc (t.1.elim zero p) (t.2.elim zero w)) zero

/-- The one or two taps left when pairs have been taken off a window of `n`. -/
def lastTaps (n : ℕ) : List ℕ := List.range' (2 * ((n - 1) / 2)) (n - 2 * ((n - 1) / 2))

/-- Lower half of the AVX2 registers (four channels): the even pixels, then the last one or two. -/
def lowTaps (n : ℕ) : List Tap := (List.range ((n - 1) / 2)).map (fun i => use (2 * i)) ++ (lastTaps n).map use
/-- Upper half: the odd pixels, then zeros. -/
def highTaps (n : ℕ) : List Tap :=
  (List.range ((n - 1) / 2)).map (fun i => use (2 * i + 1)) ++ (lastTaps n).map fun k => (none, some k)

/-- The blocks of four taps that go through the one-channel handlers: block `q` is taps `4 q … 4 q + 3`. In a
group of four rows every block once; in single rows, blocks of windows of more than 16 taps more than once. -/
def planeBlocks (single : Bool) (n : ℕ) : List ℕ :=
  if single then
    (List.range ((n - 9) / 8)).flatMap (fun m => [2 * m, 2 * m + 1, 2 * m + 2, 2 * m + 3]) ++
      List.range' (2 * ((n - 9) / 8)) ((n - 1) / 4 - 2 * ((n - 9) / 8))
  else List.range ((n - 1) / 4)

/-- The one to four taps after the blocks: two side by side if there are three or four, the rest in lane 0. -/
def planeTail (n i : ℕ) : List Tap :=
  let j := 4 * ((n - 1) / 4)
  (if j + 2 < n then [if i < 2 then use (j + i) else (none, none)] else []) ++
    (List.range' (if j + 2 < n then j + 2 else j) (n - (if j + 2 < n then j + 2 else j))).map fun k =>
      if i = 0 then use k else (none, some k)

/-- Lane `i` of the one-channel handlers. -/
def planeTaps (single : Bool) (n i : ℕ) : List Tap :=
  (planeBlocks single n).map (fun q => use (4 * q + i)) ++ planeTail n i

/-- Two half sums. -/
def pairSum {A : Type} (add : A → A → A) (mla : A → A → A → A) (zero : A) (p w : ℕ → A) (n : ℕ) : A :=
  add (tapSum mla zero p w (lowTaps n)) (tapSum mla zero p w (highTaps n))

/-- Four lanes, added in pairs. -/
def quadSum {A : Type} (add : A → A → A) (mla : A → A → A → A) (zero : A) (single : Bool) (p w : ℕ → A) (n : ℕ) : A :=
  let lane := fun i => tapSum mla zero p w (planeTaps single n i)
  add (add (lane 0) (lane 1)) (add (lane 2) (lane 3))

end PicScale.Spec
