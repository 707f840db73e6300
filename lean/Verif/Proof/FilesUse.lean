import Verif.Props.FilesTrouble
/-! # Files that are only read -/
namespace Verif.Files
open Verif.Os

/-- The disk is as it was, all the time. -/
def Quiet (s s' : Sys) : Prop := s'.os.disk = s.os.disk ∧ s'.os.history = s.os.history

theorem Quiet.trans {a b c : Sys} (h : Quiet a b) (h' : Quiet b c) : Quiet a c := ⟨h'.1.trans h.1, h'.2.trans h.2⟩

theorem lseek_quiet (o : Os.Os) (fd offset : Int) (w : Whence) : (o.lseek fd offset w).2.disk = o.disk ∧ (o.lseek fd offset w).2.history = o.history := by
  unfold Os.Os.lseek
  split
  · exact ⟨rfl, rfl⟩
  · split
    · exact ⟨rfl, rfl⟩
    · split
      · cases w <;> simp only [] <;> split <;> exact ⟨rfl, rfl⟩
      · exact ⟨rfl, rfl⟩

theorem pread_quiet (o : Os.Os) (fd : Int) (size : Nat) (offset : Int) : (o.pread fd size offset).2.disk = o.disk ∧ (o.pread fd size offset).2.history = o.history := by
  unfold Os.Os.pread
  simp only []
  split
  · exact ⟨rfl, rfl⟩
  · split
    · exact ⟨rfl, rfl⟩
    · split
      · exact ⟨rfl, rfl⟩
      · split <;> exact ⟨rfl, rfl⟩

theorem posixSeek_quiet (s : Sys) (fd offset : Int) (w : Whence) : Quiet s (posixSeek s fd offset w).2.2 := by
  unfold posixSeek
  have := lseek_quiet s.os fd offset w
  simp only []
  split <;> exact this

theorem posixRead_quiet (s : Sys) (fd : Int) (size : Nat) (offset : Int) : Quiet s (posixRead s fd size offset).2.2 := by
  unfold posixRead
  have := pread_quiet s.os fd size offset
  simp only []
  split <;> exact this

theorem seek_quiet (s : Sys) (f : FileInfo) (o : Int) : Quiet s (fileSeek s f o).2.2 := by
  have := posixSeek_quiet s f.fd o .begin
  unfold fileSeek
  rcases h : posixSeek s f.fd o .begin with ⟨a, b, s1⟩
  rw [h] at this
  exact this

theorem seekEnd_quiet (s : Sys) (f : FileInfo) : Quiet s (fileSeekToEnd s f).2.2 := by
  have := posixSeek_quiet s f.fd 0 .atEnd
  unfold fileSeekToEnd
  rcases h : posixSeek s f.fd 0 .atEnd with ⟨a, b, s1⟩
  rw [h] at this
  exact this

theorem tell_quiet (s : Sys) (f : FileInfo) : Quiet s (fileTell s f).2.2 := by
  have := posixSeek_quiet s f.fd 0 .current
  unfold fileTell
  rcases h : posixSeek s f.fd 0 .current with ⟨a, b, s1⟩
  rw [h] at this
  exact this

theorem readAt_quiet (s : Sys) (f : FileInfo) (size : Nat) (o : Int) : Quiet s (fileReadAt s f size o).2.2.2 := by
  have := posixRead_quiet s f.fd size o
  unfold fileReadAt
  rcases h : posixRead s f.fd size o with ⟨a, b, s1⟩
  rw [h] at this
  exact this

theorem size_quiet (s : Sys) (f : FileInfo) : Quiet s (fileSize s f).2.2 := by
  unfold fileSize
  have q1 := tell_quiet s f
  rcases h1 : fileTell s f with ⟨a, f1, s1⟩
  rw [h1] at q1
  have q2 := seekEnd_quiet s1 f1
  simp only []
  rcases h2 : fileSeekToEnd s1 f1 with ⟨b, f2, s2⟩
  rw [h2] at q2
  have q3 := tell_quiet s2 f2
  simp only []
  rcases h3 : fileTell s2 f2 with ⟨d, f3, s3⟩
  rw [h3] at q3
  have q4 := seek_quiet s3 f3 a
  simp only []
  rcases h4 : fileSeek s3 f3 a with ⟨e, f4, s4⟩
  rw [h4] at q4
  exact q1.trans (q2.trans (q3.trans q4))

theorem read_quiet (s : Sys) (f : FileInfo) (size : Nat) : Quiet s (fileRead s f size).2.2.2 := by
  unfold fileRead
  have q1 := tell_quiet s f
  rcases h1 : fileTell s f with ⟨a, f1, s1⟩
  rw [h1] at q1
  have q2 := tell_quiet s1 f1
  simp only []
  rcases h2 : fileTell s1 f1 with ⟨b, f2, s2⟩
  rw [h2] at q2
  have q3 := readAt_quiet s2 f2 size b
  simp only []
  rcases h3 : fileReadAt s2 f2 size b with ⟨d, x, f3, s3⟩
  rw [h3] at q3
  have q4 := seek_quiet s3 f3 (a + size)
  simp only []
  rcases h4 : fileSeek s3 f3 (a + size) with ⟨e, f4, s4⟩
  rw [h4] at q4
  exact q1.trans (q2.trans (q3.trans q4))

variable {s : Sys} {f : FileInfo} {n : Nat} {u : Use} {c : Bytes} {p : Nat}

theorem size_run (h : IsOpen s f n u c p) (hc : Calm s) :
    ∃ s', fileSize s f = ((c.length : Int), { f with ops := true }, s') ∧ IsOpen s' { f with ops := true } n u c p ∧ OnlyFile s s' n f.fd ∧ Calm s' ∧ Quiet s s' := by
  obtain ⟨s', e, h1, h2, h3, -⟩ := call_run h hc .size rfl
  have hq := size_quiet s f
  rcases hh : fileSize s f with ⟨i, f1, s1⟩
  rw [hh] at hq
  simp only [Call.run, hh, Call.meaning, Prod.mk.injEq, Answer.number.injEq] at e
  obtain ⟨rfl, rfl, rfl⟩ := e
  exact ⟨s1, rfl, h1, h2, h3, hq⟩

theorem readAt_run (h : IsOpen s f n u c p) (hc : Calm s) (hu : u.rd = true) (k o : Nat) :
    ∃ s', fileReadAt s f k o = (true, (c.drop o).take k, { f with ops := true }, s') ∧ IsOpen s' { f with ops := true } n u c p ∧ OnlyFile s s' n f.fd ∧ Calm s' ∧ Quiet s s' := by
  obtain ⟨s', e, h1, h2, h3, -⟩ := call_run h hc (.readAt k o) hu
  have hq := readAt_quiet s f k o
  rcases hh : fileReadAt s f k o with ⟨i, b, f1, s1⟩
  rw [hh] at hq
  simp only [Call.run, hh, Call.meaning, Prod.mk.injEq, Answer.bytes.injEq] at e
  obtain ⟨⟨rfl, rfl⟩, rfl, rfl⟩ := e
  exact ⟨s1, rfl, h1, h2, h3, hq⟩

theorem read_runs (h : IsOpen s f n u c p) (hc : Calm s) (hu : u.rd = true) (k : Nat) :
    ∃ s', fileRead s f k = (true, (c.drop p).take k, { f with ops := true }, s') ∧ IsOpen s' { f with ops := true } n u c (p + k) ∧ OnlyFile s s' n f.fd ∧ Calm s' ∧ Quiet s s' := by
  obtain ⟨s', e, h1, h2, h3, -⟩ := call_run h hc (.read k) hu
  have hq := read_quiet s f k
  rcases hh : fileRead s f k with ⟨i, b, f1, s1⟩
  rw [hh] at hq
  simp only [Call.run, hh, Call.meaning, Prod.mk.injEq, Answer.bytes.injEq] at e
  obtain ⟨⟨rfl, rfl⟩, rfl, rfl⟩ := e
  exact ⟨s1, rfl, h1, h2, h3, hq⟩

/-- Opened for reading, used, and closed: nothing differs. -/
theorem close_run {s1 s2 : Sys} {path : Bytes} {g : FileInfo} (ho : Opened s s1 f path n) (h1 : IsOpen s2 g n u c p) (hg : g.fd = f.fd ∧ g.filename = f.filename ∧ g.isTemp = f.isTemp)
    (h2 : OnlyFile s1 s2 n f.fd) :
    ∃ g' s3, fileClose s2 g = .ok (.NONE, g', s3) ∧ (∀ i, s3.os.descr i = s.os.descr i) ∧ (∀ b : Nat, (s3.heap[b]?).join = (s.heap[b]?).join) ∧
      s3.stdSet = s.stdSet ∧ s3.std = s.std ∧ s3.os.disk = s2.os.disk ∧ s3.os.history = s2.os.history ∧ s3.os.fates = s2.os.fates := by
  have hb : g.filename = some s.heap.length := hg.2.1.trans ho.heap.1
  have ht : s2.heap[s.heap.length]? = some (some path) := by
    rw [h2.heap, ho.heap.2]
    simp
  obtain ⟨g', s3, e, k1, k2, k3, k4, k5, k6, k7, -, -, k8⟩ := C62_close h1.fd hb ht (hg.2.2.trans ho.plain)
  refine ⟨g', s3, e, fun i => ?_, fun b => ?_, ?_, ?_, k4, k5, k8⟩
  · by_cases hi : i = g.fd
    · rw [hi, k1, hg.1, ho.fresh]
    · rw [k2 i hi, h2.fds i (hg.1 ▸ hi), ho.fds i (hg.1 ▸ hi)]
  · rw [k3, h2.heap, ho.heap.2]
    rcases Nat.lt_trichotomy b s.heap.length with hlt | heq | hgt
    · rw [List.getElem?_set_ne (by omega), List.getElem?_append_left hlt]
    · rw [heq, List.getElem?_set_self (by simp), List.getElem?_eq_none (Nat.le_refl _)]
      rfl
    · rw [List.getElem?_set_ne (by omega), List.getElem?_eq_none (by simp; omega), List.getElem?_eq_none (by omega)]
  · rw [k6, h2.std.1, ho.std.1]
  · rw [k7, h2.std.2, ho.std.2]

/-- Opening for reading leaves the disk as it is. -/
theorem open_read {path : Bytes} (hf : s.file path = some c) (hc : nextFate s ≠ .fails) :
    ∃ f s' n, fileOpenMode s 1 path = .ok (.NONE, f, s') ∧ Opened s s' f path n ∧ IsOpen s' f n ⟨true, false, false⟩ c 0 ∧ Quiet s s' ∧ s'.os.fates = s.os.fates.tail := by
  obtain ⟨n, h1, h2⟩ := file_some hf
  obtain ⟨f, s', n', e, -, h3, h4, h5⟩ := C62_open_existing .read hf hc
  refine ⟨f, s', n', e, h3, h4, ?_, h5⟩
  unfold fileOpenMode at e
  have : osMode Mode.read.bits = some ⟨true, false, false, false, false⟩ := rfl
  rw [this] at e
  have e' : s.os.openAt path ⟨true, false, false, false, false⟩ = (s.os.draw.2).newFd ⟨n, 0, true, false, false⟩ := by
    unfold Os.Os.openAt
    simp only [show s.os.draw.1 = nextFate s from rfl, hc, if_false, show s.os.draw.2.disk.look path = some n from h1, Os.Os.node?,
      show s.os.draw.2.disk.nodes[n]? = some ⟨true, c⟩ from h2, Bool.false_and]
    simp
  simp only [e'] at e
  rw [if_neg (newFd_nonneg _ _)] at e
  cases e
  exact ⟨rfl, rfl⟩

theorem textOf_map (t : Bytes) : textOf (t.map some) = .ok t := by
  induction t with
  | nil => rfl
  | cons c t ih => simp [textOf, ih]

end Verif.Files
