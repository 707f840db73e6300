import Verif.Model.Stream
/-!
# Property C57: files in memory
-/
namespace Verif.Stream

/-! ## Specification: a file of fixed size, and a position in it -/

structure File where
  bytes : Bytes
  pos : Nat

/-- What is asked of a file. -/
inductive Op where
  | seek (to : Int)
  | seekEnd
  | tell
  | size
  | readAt (n offset : Nat)
  | writeAt (x : Bytes) (offset : Nat)
  | read (n : Nat)
  | write (x : Bytes)

/-- What comes back: a number, bytes, or whether it worked and how much was written. -/
inductive Out where
  | num (n : Int)
  | bytes (l : List (Option UInt8))
  | wrote (ok : Bool) (n : Int)
  | done (ok : Bool)
  deriving DecidableEq

/-- `x` put at an offset, nothing else changed. -/
def patch (b : Bytes) (offset : Nat) (x : Bytes) : Bytes := b.take offset ++ x ++ b.drop (offset + x.length)

/-- The number nearest to `n` from 0 to `top`. -/
def within (n : Int) (top : Nat) : Nat := if n ≤ 0 then 0 else if n ≤ top then n.toNat else top

/-- What a file of fixed size does; nothing is said of an access beyond its end. -/
def File.step (f : File) : Op → Option (Out × File)
  | .seek k => some (.num (within k f.bytes.length), { f with pos := within k f.bytes.length })
  | .seekEnd => some (.num f.bytes.length, { f with pos := f.bytes.length })
  | .tell => some (.num f.pos, f)
  | .size => some (.num f.bytes.length, f)
  | .readAt n o => if o + n ≤ f.bytes.length then some (.bytes (((f.bytes.drop o).take n).map some), f) else none
  | .writeAt x o => if o + x.length ≤ f.bytes.length then some (.wrote true x.length, { f with bytes := patch f.bytes o x }) else none
  | .read n => if f.pos + n ≤ f.bytes.length then some (.bytes (((f.bytes.drop f.pos).take n).map some), { f with pos := f.pos + n }) else none
  | .write x => if f.pos + x.length ≤ f.bytes.length then some (.done true, { bytes := patch f.bytes f.pos x, pos := f.pos + x.length }) else none

def File.run (f : File) : List Op → Option (List Out × File)
  | [] => some ([], f)
  | op :: ops => do
    let (o, f) ← f.step op
    let (os, f) ← f.run ops
    some (o :: os, f)

/-! ## The stream -/

/-- One call. -/
def step (mem : Bool) (d : Stream) : Op → Res (Out × Stream)
  | .seek k => let (n, d) := d.seek k; .ok (.num n, d)
  | .seekEnd => let (n, d) := d.seekEnd; .ok (.num n, d)
  | .tell => let (n, d) := d.tell; .ok (.num n, d)
  | .size => let (n, d) := d.size; .ok (.num n, d)
  | .readAt n o => do let l ← d.readAt n o; pure (.bytes l, d)
  | .writeAt x o => do let (ok, n, d) ← d.writeAt mem x o; pure (.wrote ok n, d)
  | .read n => do let (l, d) ← d.read n; pure (.bytes l, d)
  | .write x => do let (ok, d) ← d.write mem x; pure (.done ok, d)

def run (mem : Bool) (d : Stream) : List Op → Res (List Out × Stream)
  | [] => .ok ([], d)
  | op :: ops => do
    let (o, d) ← d.step mem op
    let (os, d) ← d.run mem ops
    pure (o :: os, d)

/-- The stream holds the file: its size, its bytes and its position. The array of a clone has room for them and counts no more than them. -/
structure Holds (d : Stream) (f : File) : Prop where
  cap : d.cap = f.bytes.length
  bytes : d.buf.cells.take f.bytes.length = f.bytes.map some
  pos : d.cursor = f.pos
  inside : f.pos ≤ f.bytes.length
  room : d.clone = true → f.bytes.length ≤ d.buf.capacity ∧ d.buf.capacity ≤ d.buf.cells.length ∧ d.buf.num ≤ f.bytes.length

namespace Holds
variable {d : Stream} {f : File}

theorem length (h : Holds d f) : f.bytes.length ≤ d.buf.cells.length := by
  have := congrArg List.length h.bytes
  simp at this
  omega

theorem seekFrom (h : Holds d f) (k : Int) (whence : Whence) : ∃ start : Int, (start = match whence with
    | .begin => 0
    | .current => (f.pos : Int)
    | .atEnd => f.bytes.length) ∧
    (d.seekFrom k whence).1 = within (start + k) f.bytes.length ∧ Holds (d.seekFrom k whence).2 { f with pos := within (start + k) f.bytes.length } := by
  refine ⟨_, rfl, ?_⟩
  have key : ∀ st : Int, max 0 (min (max (st + k) 0) d.cap) = within (st + k) f.bytes.length := by
    intro st
    rw [h.cap]
    unfold within
    split
    · omega
    · split
      · omega
      · omega
  have hin : ∀ st : Int, within (st + k) f.bytes.length ≤ f.bytes.length := by
    intro st
    unfold within
    split
    · omega
    · split <;> omega
  cases whence with
  | begin => exact ⟨key 0, h.cap, h.bytes, key 0, hin 0, h.room⟩
  | current => rw [← h.pos]; exact ⟨key _, h.cap, h.bytes, key _, hin _, h.room⟩
  | atEnd => rw [← h.cap]; exact ⟨by rw [h.cap, ← h.cap]; exact key _, h.cap, h.bytes, by rw [h.cap, ← h.cap]; exact key _, hin _, h.room⟩

theorem seek (h : Holds d f) (k : Int) : (d.seek k).1 = within k f.bytes.length ∧ Holds (d.seek k).2 { f with pos := within k f.bytes.length } := by
  obtain ⟨st, rfl, h1, h2⟩ := h.seekFrom k .begin
  simp only [Int.zero_add] at h1 h2
  exact ⟨h1, h2⟩

theorem tell (h : Holds d f) : (d.tell).1 = f.pos ∧ Holds (d.tell).2 f := by
  obtain ⟨st, rfl, h1, h2⟩ := h.seekFrom 0 .current
  have : within ((f.pos : Int) + 0) f.bytes.length = f.pos := by
    have := h.inside
    unfold within
    split
    · omega
    · split <;> omega
  simp only [this] at h1 h2
  exact ⟨h1, h2⟩

theorem seekEnd (h : Holds d f) : (d.seekEnd).1 = f.bytes.length ∧ Holds (d.seekEnd).2 { f with pos := f.bytes.length } := by
  obtain ⟨st, rfl, h1, h2⟩ := h.seekFrom 0 .atEnd
  have : within ((f.bytes.length : Int) + 0) f.bytes.length = f.bytes.length := by
    unfold within
    split
    · omega
    · split <;> omega
  simp only [this] at h1 h2
  exact ⟨h1, h2⟩

theorem size (h : Holds d f) : (d.size).1 = f.bytes.length ∧ Holds (d.size).2 f := by
  have h1 := h.tell
  have h2 := h1.2.seekEnd
  have h3 := h2.2.tell
  have h4 := h3.2.seek (d.tell).1
  refine ⟨h3.1, ?_⟩
  have : within (d.tell).1 f.bytes.length = f.pos := by
    have := h.inside
    rw [h1.1]
    unfold within
    split
    · omega
    · split <;> omega
  simp only [this] at h4
  exact h4.2

theorem readAt (h : Holds d f) {n o : Nat} (ho : o + n ≤ f.bytes.length) : d.readAt n o = .ok (((f.bytes.drop o).take n).map some) := by
  have := h.length
  unfold Stream.readAt
  rw [if_pos ⟨by omega, by omega, by omega⟩]
  congr 1
  rw [Int.toNat_natCast, Int.toNat_natCast, List.map_take, List.map_drop, ← h.bytes, List.drop_take, List.take_take, Nat.min_eq_left (by omega)]

theorem copyTo {a : Arr UInt8} {b x : Bytes} {o : Nat} (hb : a.cells.take b.length = b.map some) (ho : o + x.length ≤ b.length) :
    ∃ c, Stream.copyTo a o x.length x = .ok { a with cells := c } ∧ c.length = a.cells.length ∧ c.take (patch b o x).length = (patch b o x).map some := by
  have hl : b.length ≤ a.cells.length := by
    have := congrArg List.length hb
    simp at this
    omega
  unfold Stream.copyTo Arr.copyIn
  rw [if_pos ⟨by omega, by omega⟩]
  simp only [Int.toNat_natCast, List.take_length, List.length_map]
  rw [if_pos (by omega)]
  refine ⟨_, rfl, by simp; omega, ?_⟩
  have hp : (patch b o x).length = b.length := by simp [patch]; omega
  rw [hp]
  unfold patch
  rw [List.map_append, List.map_append, List.map_take, List.map_drop, ← hb, List.take_take, Nat.min_eq_left (by omega), List.append_assoc, List.append_assoc,
    List.take_append, List.take_append, List.take_of_length_le (l := List.take o _) (by simp; omega), List.take_of_length_le (l := List.map some x) (by simp; omega)]
  congr 2
  rw [List.drop_take]
  congr 1
  simp
  omega

/-- A write inside the file. -/
theorem writeAt (h : Holds d f) (hw : d.writable = true ∨ d.clone = true) {x : Bytes} {o : Nat} (ho : o + x.length ≤ f.bytes.length) (mem : Bool) :
    ∃ d', d.writeAt mem x o = .ok (true, x.length, d') ∧ Holds d' { f with bytes := patch f.bytes o x } ∧ d'.writable = d.writable ∧ d'.clone = d.clone := by
  obtain ⟨c, hc, hl, ht⟩ := copyTo h.bytes ho
  have he : max 0 ((x.length : Int) - (d.cap - o)) = 0 := by
    rw [h.cap]
    omega
  have hg : (d.clone && decide ((d.buf.capacity : Int) < d.cap)) = false := by
    cases hk : d.clone with
    | false => rfl
    | true =>
      have := h.room hk
      have := h.cap
      simp
      omega
  have hp : (patch f.bytes o x).length = f.bytes.length := by simp [patch]; omega
  have hcw : (d.clone || d.writable) = true := by
    rcases hw with hw | hw <;> simp [hw]
  refine ⟨{ d with buf := { d.buf with cells := c } }, ?_, ⟨?_, ?_, h.pos, ?_, ?_⟩, rfl, rfl⟩
  · unfold Stream.writeAt
    simp only [hcw, Bool.not_true, Bool.false_eq_true, if_false, he, Int.add_zero, Int.sub_zero, hg, Res.bind_eq, Res.ok_bind, hc, gt_iff_lt, Int.lt_irrefl, decide_false,
      Bool.and_false, Res.pure_eq, Bool.true_eq_false]
  · rw [h.cap, hp]
  · exact ht
  · show f.pos ≤ (patch f.bytes o x).length
    rw [hp]
    exact h.inside
  · intro hk
    have := h.room hk
    show (patch f.bytes o x).length ≤ d.buf.capacity ∧ d.buf.capacity ≤ c.length ∧ d.buf.num ≤ (patch f.bytes o x).length
    omega

end Holds

/-- C57: whatever is asked of a stream that can be written, in whatever order, it answers like a file of fixed size, as long as nothing is read or written
beyond its end. -/
theorem C57_history {d : Stream} {f f' : File} {outs : List Out} (mem : Bool) (h : Holds d f) (hw : d.writable = true ∨ d.clone = true) (ops : List Op)
    (hr : f.run ops = some (outs, f')) : ∃ d', d.run mem ops = .ok (outs, d') ∧ Holds d' f' := by
  induction ops generalizing d f outs with
  | nil => cases hr; exact ⟨d, rfl, h⟩
  | cons op ops ih =>
    simp only [File.run, Option.bind_eq_bind, Option.bind_eq_some_iff, Option.some.injEq, Prod.mk.injEq, Prod.exists] at hr
    obtain ⟨o, f1, h1, os, f2, h2, rfl, rfl⟩ := hr
    have one : ∃ d1, d.step mem op = .ok (o, d1) ∧ Holds d1 f1 ∧ d1.writable = d.writable ∧ d1.clone = d.clone := by
      cases op with
      | seek k =>
        cases h1
        exact ⟨_, by rw [← (h.seek k).1]; rfl, (h.seek k).2, rfl, rfl⟩
      | seekEnd =>
        cases h1
        exact ⟨_, by rw [← h.seekEnd.1]; rfl, h.seekEnd.2, rfl, rfl⟩
      | tell =>
        cases h1
        exact ⟨_, by rw [← h.tell.1]; rfl, h.tell.2, rfl, rfl⟩
      | size =>
        cases h1
        exact ⟨_, by rw [← h.size.1]; rfl, h.size.2, rfl, rfl⟩
      | readAt n k =>
        simp only [File.step] at h1
        split at h1
        · cases h1
          rename_i hk
          refine ⟨d, ?_, h, rfl, rfl⟩
          show (d.readAt n k).bind _ = _
          rw [h.readAt hk]
          rfl
        · cases h1
      | writeAt x k =>
        simp only [File.step] at h1
        split at h1
        · cases h1
          rename_i hk
          obtain ⟨d', r1, r2, r3, r4⟩ := h.writeAt hw hk mem
          refine ⟨d', ?_, r2, r3, r4⟩
          show (d.writeAt mem x k).bind _ = _
          rw [r1]
          rfl
        · cases h1
      | read n =>
        simp only [File.step] at h1
        split at h1
        · cases h1
          rename_i hk
          have ht := h.tell
          have ht2 := ht.2.tell
          have hs := ht2.2.seek (((f.pos + n : Nat)) : Int)
          have hp : within ((f.pos + n : Nat) : Int) f.bytes.length = f.pos + n := by
            unfold within
            split
            · omega
            · split <;> omega
          simp only [hp] at hs
          refine ⟨_, ?_, hs.2, rfl, rfl⟩
          show (d.read n).bind _ = _
          unfold Stream.read
          simp only [ht.1, ht2.1, ht2.2.readAt hk, Res.bind_eq, Res.ok_bind, Res.pure_eq]
          rw [show (f.pos : Int) + (n : Int) = ((f.pos + n : Nat) : Int) by omega]
        · cases h1
      | write x =>
        simp only [File.step] at h1
        split at h1
        · cases h1
          rename_i hk
          have ht := h.tell
          have ht2 := ht.2.tell
          obtain ⟨d', r1, r2, r3, r4⟩ := ht2.2.writeAt hw hk mem
          have hs := r2.seek (((f.pos + x.length : Nat)) : Int)
          have hpl : (patch f.bytes f.pos x).length = f.bytes.length := by simp [patch]; omega
          have hp : within ((f.pos + x.length : Nat) : Int) (patch f.bytes f.pos x).length = f.pos + x.length := by
            rw [hpl]
            unfold within
            split
            · omega
            · split <;> omega
          simp only [hp] at hs
          refine ⟨_, ?_, hs.2, r3, r4⟩
          show (d.write mem x).bind _ = _
          unfold Stream.write
          simp only [ht.1, ht2.1, r1, Res.bind_eq, Res.ok_bind, Res.pure_eq]
          rw [show (f.pos : Int) + (x.length : Int) = ((f.pos + x.length : Nat) : Int) by omega]
        · cases h1
    obtain ⟨d1, r1, r2, r3, r4⟩ := one
    obtain ⟨d2, w1, w2⟩ := ih r2 (by rw [r3, r4]; exact hw) h2
    refine ⟨d2, ?_, w2⟩
    unfold run
    simp only [r1, w1, Res.bind_eq, Res.ok_bind, Res.pure_eq]

/-! ## Opening -/

/-- C57: a stream over a buffer holds its bytes, at the start. -/
theorem C57_open (mem : Bool) (b : Bytes) (writable : Bool) : ∃ d, openOn mem (b.map some) writable false = .ok (some d) ∧ Holds d ⟨b, 0⟩ ∧ d.writable = writable ∧ d.clone = false := by
  refine ⟨_, rfl, ⟨by simp, List.take_of_length_le (by simp), rfl, Nat.zero_le _, ?_⟩, rfl, rfl⟩
  intro hh
  cases hh

/-- C57: so does a stream over a clone of it. -/
theorem C57_open_clone (b : Bytes) (hb : b ≠ []) (writable : Bool) : ∃ d, openOn true (b.map some) writable true = .ok (some d) ∧ Holds d ⟨b, 0⟩ ∧ d.clone = true ∧
    d.buf.num = b.length := by
  have hl : 0 < b.length := List.length_pos_iff.2 hb
  unfold openOn Arr.initReserve Arr.copyIn
  simp only [if_true, List.length_map, gt_iff_lt, hl, Res.assert_true, Res.bind_eq, Res.ok_bind, Res.pure_eq, List.length_replicate, Nat.zero_add, Nat.le_refl, List.take_zero,
    List.nil_append]
  refine ⟨_, rfl, ⟨rfl, ?_, rfl, Nat.zero_le _, ?_⟩, rfl, rfl⟩
  · simp
    exact List.take_of_length_le (by simp)
  · intro _
    simp

/-- C57: a new stream is empty. -/
theorem C57_new : ∃ d, new true = .ok (some d) ∧ Holds d ⟨[], 0⟩ ∧ d.clone = true ∧ d.buf.num = 0 ∧ d.buf.capacity = 8 :=
  ⟨_, rfl, ⟨rfl, rfl, rfl, Nat.le_refl _, fun _ => ⟨Nat.zero_le _, by decide, Nat.le_refl _⟩⟩, rfl, rfl, rfl⟩

/-! ## At the end of the file -/

/-- C57: a stream opened for reading refuses to be written, and stays as it is. -/
theorem C57_readonly {d : Stream} (mem : Bool) (hw : d.writable = false) (hc : d.clone = false) (x : Bytes) (o : Int) : d.writeAt mem x o = .ok (false, 0, d) := by
  unfold writeAt
  simp [hw, hc]

/-- C57: a stream over the caller's buffer takes what fits, and says how much that was. -/
theorem C57_fixed {d : Stream} {f : File} (mem : Bool) (h : Holds d f) (hw : d.writable = true) (hc : d.clone = false) {x : Bytes} {o : Nat} (ho : o ≤ f.bytes.length)
    (hx : f.bytes.length < o + x.length) : ∃ d', d.writeAt mem x o = .ok (true, ((f.bytes.length - o : Nat) : Int), d') ∧
      Holds d' { f with bytes := f.bytes.take o ++ x.take (f.bytes.length - o) } := by
  obtain ⟨k, hk⟩ : ∃ k, k = f.bytes.length - o := ⟨_, rfl⟩
  rw [← hk]
  have hxl : (x.take k).length = k := by simp; omega
  obtain ⟨c, r1, r2, r3⟩ := Holds.copyTo h.bytes (o := o) (x := x.take k) (by omega)
  have hpt : patch f.bytes o (x.take k) = f.bytes.take o ++ x.take k := by
    unfold patch
    rw [List.drop_eq_nil_of_le (by omega), List.append_nil]
  rw [hpt] at r3
  have he : max 0 ((x.length : Int) - (d.cap - o)) = x.length - k := by
    rw [h.cap]
    omega
  have hcp : Stream.copyTo d.buf o k x = .ok { d.buf with cells := c } := by
    rw [← r1, hxl]
    unfold Stream.copyTo
    simp [List.take_take]
  refine ⟨{ d with buf := { d.buf with cells := c } }, ?_, ⟨?_, r3, h.pos, ?_, ?_⟩⟩
  · unfold writeAt
    have e2 : (x.length : Int) - (x.length - k) = k := by omega
    simp only [hw, hc, Bool.or_true, Bool.not_true, Bool.false_eq_true, if_false, he, e2, Bool.false_and, Res.bind_eq, Res.ok_bind, hcp, Res.pure_eq, Bool.true_eq_false]
  · rw [h.cap]
    simp
    omega
  · have := h.inside
    simp
    omega
  · intro hh
    rw [hc] at hh
    cases hh

/-- What is left of the first `o` bytes of `f` when the array is moved: it moves as many as it counts. -/
def left (b : Bytes) (o n : Nat) : List (Option UInt8) := (b.take (min n o)).map some ++ List.replicate (o - n) none

/-- C57: a write that extends a clone stores all its bytes, and the file ends behind them. In front of them the file keeps its bytes if the array has
room; otherwise only those the array counts are kept, that is those the stream was opened with. -/
theorem C57_extend {d : Stream} {f : File} (h : Holds d f) (hc : d.clone = true) {x : Bytes} {o : Nat} (ho : o ≤ f.bytes.length) (hx : f.bytes.length < o + x.length) :
    ∃ d', d.writeAt true x o = .ok (true, x.length, d') ∧ d'.cap = ((o + x.length : Nat) : Int) ∧ d'.cursor = d.cursor ∧ d'.clone = true ∧ d'.buf.num = d.buf.num ∧
      d'.buf.capacity = o + x.length ∧ o + x.length ≤ d'.buf.cells.length ∧
      d'.buf.cells.take (o + x.length) = (if o + x.length ≤ d.buf.capacity then (f.bytes.take o).map some else left f.bytes o d.buf.num) ++ x.map some := by
  obtain ⟨k, hk⟩ : ∃ k, k = f.bytes.length - o := ⟨_, rfl⟩
  have hroom := h.room hc
  have hlen := h.length
  have he : max 0 ((x.length : Int) - (d.cap - o)) = ((x.length - k : Nat) : Int) := by
    rw [h.cap]
    omega
  have e2 : (x.length : Int) - ((x.length - k : Nat) : Int) = k := by omega
  have e3 : d.cap + ((x.length - k : Nat) : Int) = ((o + x.length : Nat) : Int) := by rw [h.cap]; omega
  -- the array, moved if need be
  obtain ⟨a, ha1, ha2, ha3, ha4⟩ : ∃ a : Arr UInt8, (if d.clone && decide ((d.buf.capacity : Int) < ((o + x.length : Nat) : Int)) then
      Arr.grow .cpp true true d.buf (((o + x.length : Nat) : Int)).toNat else Res.ok (true, d.buf)) = .ok (true, a) ∧ a.num = d.buf.num ∧ o + x.length ≤ a.cells.length ∧
      a.cells.take o = (if o + x.length ≤ d.buf.capacity then (f.bytes.take o).map some else left f.bytes o d.buf.num) := by
    by_cases hg : o + x.length ≤ d.buf.capacity
    · refine ⟨d.buf, ?_, rfl, by omega, ?_⟩
      · rw [if_neg]
        simp
        omega
      · rw [if_pos hg, List.map_take, ← h.bytes, List.take_take, Nat.min_eq_left (by omega)]
    · rw [if_pos (by simp [hc]; omega)]
      simp only [Int.toNat_natCast]
      obtain ⟨m, hm⟩ : ∃ m, m = if Arr.growFormula d.buf.capacity < o + x.length then o + x.length else Arr.growFormula d.buf.capacity := ⟨_, rfl⟩
      have hm1 : o + x.length ≤ m := by rw [hm]; split <;> omega
      have hm2 : m ≠ d.buf.capacity := by omega
      have hm3 : ¬ m < d.buf.num := by omega
      refine ⟨⟨m, d.buf.num, d.buf.cells.take d.buf.num ++ List.replicate (m - d.buf.num) none⟩, ?_, rfl, by simp; omega, ?_⟩
      · unfold Arr.grow Arr.setCapacity
        rw [← hm]
        have : d.buf.num ≤ d.buf.cells.length := by omega
        have h0 : 0 < o + x.length := by omega
        simp [Res.assert, hm2, hm3, this, h0]
      · rw [if_neg hg]
        unfold left
        show List.take o (d.buf.cells.take d.buf.num ++ List.replicate (m - d.buf.num) none) = _
        rw [List.take_append, List.take_take, List.map_take, ← h.bytes, List.take_take, show min (min d.buf.num o) f.bytes.length = min o d.buf.num by omega]
        congr 1
        rw [List.take_replicate]
        congr 1
        simp
        omega
  have hk2 : k ≤ x.length := by omega
  have c1 : Stream.copyTo a o k x = .ok { a with cells := a.cells.take o ++ (x.take k).map some ++ a.cells.drop (o + k) } := by
    unfold Stream.copyTo Arr.copyIn
    rw [if_pos ⟨by omega, by omega⟩]
    simp only [Int.toNat_natCast, List.length_map, List.length_take, Nat.min_eq_left hk2]
    rw [if_pos (by omega)]
  obtain ⟨cs, hcs⟩ : ∃ cs, cs = a.cells.take o ++ (x.take k).map some ++ a.cells.drop (o + k) := ⟨_, rfl⟩
  have hcl : cs.length = a.cells.length := by rw [hcs]; simp; omega
  rw [← hcs] at c1
  have c2 : Stream.copyTo { a with cells := cs } (o + k) ((x.length - k : Nat) : Int) (x.drop k) =
      .ok { a with cells := cs.take (o + k) ++ (x.drop k).map some ++ cs.drop (o + x.length) } := by
    unfold Stream.copyTo Arr.copyIn
    rw [if_pos ⟨by omega, by omega⟩]
    have e4 : ((o : Int) + k).toNat = o + k := by omega
    simp only [Int.toNat_natCast, List.length_map, List.length_take, List.length_drop, Nat.min_self, e4]
    rw [if_pos (by omega), List.take_of_length_le (l := List.drop k x) (by rw [List.length_drop]; omega), show o + k + (x.length - k) = o + x.length by omega]
  refine ⟨{ d with buf := { a with cells := cs.take (o + k) ++ (x.drop k).map some ++ cs.drop (o + x.length), capacity := o + x.length }, cap := ((o + x.length : Nat) : Int) }, ?_, rfl, rfl,
    hc, ha2, rfl, ?_, ?_⟩
  · unfold writeAt
    simp only [he, e2, e3]
    have hpos : (0 : Int) < ((x.length - k : Nat) : Int) := by omega
    generalize hcond : (d.clone && decide ((d.buf.capacity : Int) < ((o + x.length : Nat) : Int))) = cond at ha1 ⊢
    cases cond <;> simp only [Bool.false_eq_true, if_false, if_true] at ha1 <;> simp only [ha1] <;>
    simp only [hc, Bool.true_or, Bool.not_true, Bool.false_eq_true, if_false, Res.bind_eq, Res.ok_bind, c1, c2, Int.toNat_natCast, gt_iff_lt, hpos, decide_true, Bool.and_self,
      if_true, Res.pure_eq, Bool.true_eq_false]
    · cases ha1
      rw [show (k : Int) + ((x.length - k : Nat) : Int) = (x.length : Int) by omega]
    · rw [show (k : Int) + ((x.length - k : Nat) : Int) = (x.length : Int) by omega]
  · show o + x.length ≤ (cs.take (o + k) ++ (x.drop k).map some ++ cs.drop (o + x.length)).length
    simp
    omega
  · show List.take (o + x.length) (cs.take (o + k) ++ (x.drop k).map some ++ cs.drop (o + x.length)) = _
    rw [List.take_left' (by simp; omega), ← ha4]
    have : cs.take (o + k) = a.cells.take o ++ (x.take k).map some := by
      rw [hcs, List.take_left' (by simp; omega)]
    rw [this, List.append_assoc, ← List.map_append, List.take_append_drop]

/-- `file_write` at the end of a clone, in terms of `C57_extend`. -/
theorem write_end {d : Stream} {f : File} (h : Holds d f) (hc : d.clone = true) (hp : f.pos = f.bytes.length) {x : Bytes} (hx : x ≠ []) :
    ∃ d', d.write true x = .ok (true, d') ∧ d'.cap = ((f.bytes.length + x.length : Nat) : Int) ∧ d'.cursor = ((f.bytes.length + x.length : Nat) : Int) ∧ d'.clone = true ∧
      d'.buf.num = d.buf.num ∧ d'.buf.capacity = f.bytes.length + x.length ∧ f.bytes.length + x.length ≤ d'.buf.cells.length ∧
      d'.buf.cells.take (f.bytes.length + x.length) =
        (if f.bytes.length + x.length ≤ d.buf.capacity then f.bytes.map some else left f.bytes f.bytes.length d.buf.num) ++ x.map some := by
  have hl : 0 < x.length := List.length_pos_iff.2 hx
  have t1 := h.tell
  have t2 := t1.2.tell
  have n1 : d.tell.2.tell.2.buf = d.buf := rfl
  obtain ⟨d', r1, r2, r3, r4, r5, r6, r7, r8⟩ := C57_extend t2.2 (x := x) (o := f.bytes.length) hc (Nat.le_refl _) (by omega)
  rw [n1] at r5 r8
  rw [List.take_length] at r8
  have hcur : (d'.seek ((f.bytes.length : Int) + x.length)).1 = ((f.bytes.length + x.length : Nat) : Int) := by
    show max 0 (min (max (0 + ((f.bytes.length : Int) + x.length)) 0) d'.cap) = _
    rw [r2]
    omega
  refine ⟨(d'.seek ((f.bytes.length : Int) + x.length)).2, ?_, r2, hcur, r4, r5, r6, r7, r8⟩
  unfold write
  rw [hp] at t1 t2
  simp only [t1.1, t2.1, r1, Res.bind_eq, Res.ok_bind, Res.pure_eq]

/-- C57: what is written to a new stream by one call is what it holds. -/
theorem C57_write_new {x : Bytes} (hx : x ≠ []) : ∃ d d', new true = .ok (some d) ∧ d.write true x = .ok (true, d') ∧ Holds d' ⟨x, x.length⟩ := by
  obtain ⟨d, hd, h, hc, hn, hcap⟩ := C57_new
  obtain ⟨d', r1, r2, r3, r4, r5, r6, r7, r8⟩ := write_end h hc rfl hx
  simp only [List.length_nil, Nat.zero_add] at r2 r3 r6 r7 r8
  refine ⟨d, d', hd, r1, ⟨r2, ?_, r3, Nat.le_refl _, fun _ => ⟨by show x.length ≤ _; omega, by omega, by show d'.buf.num ≤ x.length; omega⟩⟩⟩
  show List.take x.length _ = _
  rw [r8]
  simp [left]

/-- C57: what is written to the end of a cloned buffer by one call follows the bytes of the buffer. -/
theorem C57_write_opened {b x : Bytes} (hb : b ≠ []) (hx : x ≠ []) (writable : Bool) : ∃ d d', openOn true (b.map some) writable true = .ok (some d) ∧
    d.seekEnd.2.write true x = .ok (true, d') ∧ Holds d' ⟨b ++ x, b.length + x.length⟩ := by
  obtain ⟨d, hd, h, hc, hn⟩ := C57_open_clone b hb writable
  have h := h.seekEnd.2
  obtain ⟨d', r1, r2, r3, r4, r5, r6, r7, r8⟩ := write_end h hc rfl hx
  have hn' : d.seekEnd.2.buf.num = b.length := hn
  rw [hn'] at r5 r8
  refine ⟨d, d', hd, r1, ⟨by rw [r2]; simp, ?_, r3, by simp, fun _ => ⟨?_, ?_, ?_⟩⟩⟩
  · show List.take (b ++ x).length _ = _
    rw [List.length_append, r8, List.map_append]
    congr 1
    split
    · rfl
    · simp [left]
  · rw [r6]
    simp
  · omega
  · rw [r5]
    simp

/-- C57, what is false: that a stream keeps what is written to it. Whatever is written to a new stream by a first call, nothing of it is left once a
second one has extended the file. -/
theorem C57_lost_refuted {x y : Bytes} (hx : x ≠ []) (hy : y ≠ []) : ∃ d d' d'', new true = .ok (some d) ∧ d.write true x = .ok (true, d') ∧ d'.write true y = .ok (true, d'') ∧
    d''.cap = ((x.length + y.length : Nat) : Int) ∧ d''.readAt x.length 0 = .ok (List.replicate x.length none) ∧ d''.readAt y.length x.length = .ok (y.map some) := by
  obtain ⟨d, hd, h, hc, hn, hcap⟩ := C57_new
  obtain ⟨d', r1, r2, r3, r4, r5, r6, r7, r8⟩ := write_end h hc rfl hx
  simp only [List.length_nil, Nat.zero_add] at r2 r3 r6 r7 r8
  have hH : Holds d' ⟨x, x.length⟩ := by
    refine ⟨r2, ?_, r3, Nat.le_refl _, fun _ => ⟨by show x.length ≤ _; omega, by omega, by show d'.buf.num ≤ x.length; omega⟩⟩
    show List.take x.length _ = _
    rw [r8]
    simp [left]
  obtain ⟨d'', w1, w2, w3, w4, w5, w6, w7, w8⟩ := write_end hH r4 rfl hy
  have hyl : 0 < y.length := List.length_pos_iff.2 hy
  have w2 : d''.cap = ((x.length + y.length : Nat) : Int) := w2
  have w7 : x.length + y.length ≤ d''.buf.cells.length := w7
  have w8 : d''.buf.cells.take (x.length + y.length) = List.replicate x.length none ++ y.map some := by
    rw [if_neg (by show ¬ x.length + y.length ≤ d'.buf.capacity; omega), r5, hn] at w8
    simpa [left] using w8
  refine ⟨d, d', d'', hd, r1, w1, w2, ?_, ?_⟩
  · unfold readAt
    rw [if_pos ⟨by omega, by omega, by omega⟩]
    congr 1
    rw [Int.toNat_natCast, show (0 : Int).toNat = 0 from rfl, List.drop_zero]
    have := congrArg (List.take x.length) w8
    rw [List.take_take, Nat.min_eq_left (by omega), List.take_left' (by simp)] at this
    exact this
  · unfold readAt
    rw [if_pos ⟨by omega, by omega, by omega⟩]
    congr 1
    rw [Int.toNat_natCast, Int.toNat_natCast]
    have := congrArg (List.drop x.length) w8
    rw [List.drop_take, List.drop_left' (by simp), show x.length + y.length - x.length = y.length by omega] at this
    exact this

/-- C57, what is false: that a read stops at the end of the file. It copies as many bytes as it is asked for, from outside the buffer too. -/
theorem C57_read_refuted {d : Stream} {n o : Nat} (h : d.buf.cells.length < o + n) : d.readAt n o = .ub := by
  unfold readAt
  rw [if_neg]
  omega

/-- C57, what is false: that a write behind the end of the file is refused. It copies a negative number of bytes. -/
theorem C57_write_refuted {d : Stream} {f : File} (h : Holds d f) (hw : d.writable = true ∨ d.clone = true) {x : Bytes} {o : Nat} (ho : f.bytes.length < o) : d.writeAt true x o = .ub := by
  have hcw : (d.clone || d.writable) = true := by
    rcases hw with hw | hw <;> simp [hw]
  have he : max 0 ((x.length : Int) - (d.cap - o)) = x.length + (o - f.bytes.length : Nat) := by
    rw [h.cap]
    omega
  have e2 : (x.length : Int) - (x.length + (o - f.bytes.length : Nat)) = -((o - f.bytes.length : Nat) : Int) := by omega
  have hcopy : ∀ a : Arr UInt8, Stream.copyTo a o (-((o - f.bytes.length : Nat) : Int)) x = .ub := by
    intro a
    unfold copyTo
    rw [if_neg]
    omega
  unfold writeAt
  simp only [hcw, Bool.not_true, Bool.false_eq_true, if_false, he, e2]
  generalize hcond : (d.clone && decide ((d.buf.capacity : Int) < d.cap + (x.length + (o - f.bytes.length : Nat)))) = cond
  cases cond with
  | false => simp [hcopy]
  | true =>
    simp only [Bool.and_eq_true, decide_eq_true_eq] at hcond
    have hroom := h.room hcond.1
    have hlen := h.length
    simp only [if_true]
    obtain ⟨m, hm⟩ : ∃ m, m = (d.cap + ((x.length : Int) + (o - f.bytes.length : Nat))).toNat := ⟨_, rfl⟩
    rw [← hm]
    have hg : ∃ a, Arr.grow .cpp true true d.buf m = .ok (true, a) := by
      have hm1 : d.buf.capacity < m := by omega
      unfold Arr.grow Arr.setCapacity
      have h0 : 0 < m := by omega
      have h1 : d.buf.num ≤ d.buf.cells.length := by omega
      obtain ⟨g, hg⟩ : ∃ g, g = if Arr.growFormula d.buf.capacity < m then m else Arr.growFormula d.buf.capacity := ⟨_, rfl⟩
      rw [← hg]
      have hg1 : m ≤ g := by rw [hg]; split <;> omega
      have h2 : g ≠ d.buf.capacity := by omega
      have h3 : ¬ g < d.buf.num := by omega
      simp [Res.assert, h0, h1, h2, h3]
    obtain ⟨a, ha⟩ := hg
    simp [ha, hcopy]

/-! ## A case -/

/-- Eight bytes, read and written. -/
example : ∃ d d', openOn false ((b!"abcdefgh").map some) true false = .ok (some d) ∧
    d.run false [.seek 2, .write b!"XY", .tell, .readAt 4 1, .seek (-5), .read 3, .writeAt b!"Z" 7, .seekEnd, .size] =
      .ok ([.num 2, .done true, .num 4, .bytes ((b!"bXYe").map some), .num 0, .bytes ((b!"abX").map some), .wrote true 1, .num 8, .num 8], d') ∧
    Holds d' ⟨b!"abXYefgZ", 8⟩ := by
  obtain ⟨d, hd, h, hw, -⟩ := C57_open false b!"abcdefgh" true
  obtain ⟨d', h1, h2⟩ := C57_history false h (.inl hw) [.seek 2, .write b!"XY", .tell, .readAt 4 1, .seek (-5), .read 3, .writeAt b!"Z" 7, .seekEnd, .size] rfl
  exact ⟨d, d', hd, h1, h2⟩

end Verif.Stream
