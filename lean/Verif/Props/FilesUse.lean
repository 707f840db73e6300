import Verif.Proof.FilesUse
import Verif.Props.Builder
/-!
# C62 Files: what the library does with them

`file_read_contents`, and what is built on it and on the other calls: `scan_file`, `parse_file`, `parse_csv_one_column`, `parse_csv_two_columns`, and the
builder.
-/
namespace Verif.Files
open Verif.Os

variable {s : Sys} {c : Bytes}

/-! ## Reading -/

/-- C62: `file_read_contents` gives the bytes of the file, with a zero behind them if one is asked for, and leaves everything as it was. -/
theorem C62_read_contents {path : Bytes} (zero : Bool) (hf : s.file path = some c) (hne : c ≠ []) (hc : Calm s) :
    ∃ s', fileReadContents s zero path = .ok (⟨some ((c ++ if zero then [0] else []).map some), some c.length⟩, s') ∧ Unchanged s s' := by
  have hcalm : ∀ {a b : Sys}, b.os.fates = a.os.fates.tail → Calm a → Calm b := fun h1 h2 => by
    have h2 : _ = [] := h2
    show _ = []
    rw [h1, h2]
    rfl
  obtain ⟨f, s1, n, e1, ho, h1, q1, t1⟩ := open_read hf (by show s.os.fates.headD .full ≠ _; rw [show s.os.fates = [] from hc]; decide)
  obtain ⟨s2, e2, h2, o2, c2, q2⟩ := size_run h1 (hcalm t1 hc)
  obtain ⟨s3, e3, h3, o3, c3, q3⟩ := readAt_run h2 c2 rfl c.length 0
  rw [List.drop_zero, List.take_length] at e3
  obtain ⟨g, s4, e4, k1, k2, k3, k4, k5, k6, k8⟩ := close_run ho h3 ⟨rfl, rfl, rfl⟩ (o2.trans o3)
  have hpos : (0 : Int) < c.length := by have := List.length_pos_iff.mpr hne; omega
  refine ⟨s4, ?_, k5.trans (q1.trans (q2.trans q3)).1, k1, k2, ⟨k3, k4⟩, (fun x hx => ?_), fun _ => k8.trans c3⟩
  · unfold fileReadContents fileOpen
    simp only [Res.bind_eq, e1, Res.ok_bind, if_true, e2, hpos, Int.toNat_natCast]
    rw [show ((0 : Int)) = ((0 : Nat) : Int) from rfl, e3]
    simp only [e4, Res.ok_bind, Nat.sub_self, List.replicate_zero, List.append_nil]
    cases zero <;> simp
  · rw [k6, (q1.trans (q2.trans q3)).2] at hx
    exact hx

/-- C62 is false of a file that is empty, missing or refused: the data and the size are whatever was on the stack. -/
theorem C62_read_contents_refuted {path : Bytes} (zero : Bool) (hc : Calm s) (hf : s.file path = some [] ∨ s.os.disk.look path = none) :
    ∃ s', fileReadContents s zero path = .ok (⟨none, none⟩, s') ∧ Unchanged s s' := by
  rcases hf with hf | hf
  · obtain ⟨f, s1, n, e1, ho, h1, q1, t1⟩ := open_read hf (by show s.os.fates.headD .full ≠ _; rw [show s.os.fates = [] from hc]; decide)
    have hc1 : Calm s1 := by show _ = []; rw [t1, show s.os.fates = [] from hc]; rfl
    obtain ⟨s2, e2, h2, o2, c2, q2⟩ := size_run h1 hc1
    obtain ⟨g, s4, e4, k1, k2, k3, k4, k5, k6, k8⟩ := close_run ho h2 ⟨rfl, rfl, rfl⟩ o2
    refine ⟨s4, ?_, k5.trans (q1.trans q2).1, k1, k2, ⟨k3, k4⟩, (fun x hx => ?_), fun _ => k8.trans c2⟩
    · unfold fileReadContents fileOpen
      simp only [Res.bind_eq, e1, Res.ok_bind, if_true, e2, List.length_nil]
      rw [if_neg (by decide)]
      simp only [e4, Res.ok_bind]
      rfl
    · rw [k6, (q1.trans q2).2] at hx
      exact hx
  · obtain ⟨f, s', e, h⟩ := C62_open_fails (s := s) (path := path) .read (.inr ⟨rfl, hf⟩)
    refine ⟨s', ?_, h⟩
    have e : fileOpenMode s 1 path = .ok (.INVALID, f, s') := e
    unfold fileReadContents fileOpen
    simp only [Res.bind_eq, e, Res.ok_bind]
    rfl

/-- C62 is false of a read that the system cuts off: the call does not look at the number of bytes, and the rest is whatever the memory held. -/
theorem C62_short_read_refuted : ∃ s', fileReadContents (one ⟨true, false, false⟩ b!"abc" 0 [.full, .atMost 1]) true b!"a" =
    .ok (⟨some [some 97, none, none, some 0], some 3⟩, s') := ⟨_, rfl⟩

/-- C62: `parse_file` parses the bytes of the file, and leaves the files as they were. -/
theorem C62_parse_file {path : Bytes} (w : Parse.World) (hf : s.file path = some c) (hne : c ≠ []) (hc : Calm s) :
    ∃ s', parsePath w s path = (Parse.parse_global_body w c).bind (fun r => .ok (r, s')) ∧ Unchanged s s' := by
  obtain ⟨s', e, h⟩ := C62_read_contents true hf hne hc
  refine ⟨s', ?_, h⟩
  unfold parsePath
  simp only [Res.bind_eq, e, Res.ok_bind, Int.toNat_natCast]
  rw [← List.map_take, if_pos trivial, List.take_left, textOf_map, Res.ok_bind]
  rfl

/-- C62 is false of an empty or missing file: `parse_file` goes through a pointer that was never stored. -/
theorem C62_parse_file_refuted {path : Bytes} (w : Parse.World) (hc : Calm s) (hf : s.file path = some [] ∨ s.os.disk.look path = none) : parsePath w s path = .ub := by
  obtain ⟨s', e, -⟩ := C62_read_contents_refuted true hc hf
  unfold parsePath
  simp only [Res.bind_eq, e, Res.ok_bind]

/-- C62: `scan_file` scans the bytes of the file, and leaves the files as they were. -/
theorem C62_scan_file {lt : Bool} {path : Bytes} (hf : s.file path = some c) (hne : c ≠ []) (hc : Calm s) :
    ∃ s', scanPath lt s path = (Scanner.scanFile lt c).bind (fun t => .ok (t, s')) ∧ Unchanged s s' := by
  obtain ⟨f, s1, n, e1, ho, h1, q1, t1⟩ := open_read hf (by show s.os.fates.headD .full ≠ _; rw [show s.os.fates = [] from hc]; decide)
  have hc1 : Calm s1 := by show _ = []; rw [t1, show s.os.fates = [] from hc]; rfl
  obtain ⟨s2, e2, h2, o2, c2, q2⟩ := size_run h1 hc1
  obtain ⟨s3, e3, h3, o3, c3, q3⟩ := read_runs h2 c2 rfl c.length
  rw [List.drop_zero, List.take_length] at e3
  obtain ⟨g, s4, e4, k1, k2, k3, k4, k5, k6, k8⟩ := close_run ho h3 ⟨rfl, rfl, rfl⟩ (o2.trans o3)
  have hpos : ¬ (c.length : Int) ≤ 0 := by have := List.length_pos_iff.mpr hne; omega
  refine ⟨s4, ?_, k5.trans (q1.trans (q2.trans q3)).1, k1, k2, ⟨k3, k4⟩, (fun x hx => ?_), fun _ => k8.trans c3⟩
  · unfold scanPath
    simp only [Res.bind_eq, e1, Res.ok_bind]
    rw [if_neg (by simp)]
    simp only [e2, hpos, if_false, Int.toNat_natCast, e3, Nat.sub_self, List.replicate_zero, List.append_nil, textOf_map, Res.ok_bind, e4]
    rfl
  · rw [k6, (q1.trans (q2.trans q3)).2] at hx
    exact hx

/-- C62: a file that is empty, missing or refused stops `scan_file`. -/
theorem C62_scan_file_stops {lt : Bool} {path : Bytes} (h : (Calm s ∧ s.file path = some []) ∨ s.os.disk.look path = none ∨ nextFate s = .fails) : scanPath lt s path = .stop := by
  rcases h with ⟨hc, hf⟩ | h
  · obtain ⟨f, s1, n, e1, ho, h1, q1, t1⟩ := open_read hf (by show s.os.fates.headD .full ≠ _; rw [show s.os.fates = [] from hc]; decide)
    have hc1 : Calm s1 := by show _ = []; rw [t1, show s.os.fates = [] from hc]; rfl
    obtain ⟨s2, e2, h2, o2, c2, q2⟩ := size_run h1 hc1
    unfold scanPath
    simp only [Res.bind_eq, e1, Res.ok_bind]
    rw [if_neg (by simp)]
    simp only [e2]
    rfl
  · obtain ⟨f, s', e, -⟩ := C62_open_fails (s := s) (path := path) .read (h.elim (fun h => .inr ⟨rfl, h⟩) .inl)
    have e : fileOpenMode s 1 path = .ok (.INVALID, f, s') := e
    unfold scanPath
    simp only [Res.bind_eq, e, Res.ok_bind]
    rfl

theorem cut_zero {t : Bytes} (h : (0 : UInt8) ∉ t) : (t ++ [0]).takeWhile (fun b => b != 0) = t := by
  induction t with
  | nil => rfl
  | cons a t ih =>
    rw [List.cons_append, List.takeWhile_cons, if_pos (by simpa using fun hh : a = 0 => h (hh ▸ List.mem_cons_self ..)), ih (fun hh => h (List.mem_cons_of_mem _ hh))]

/-- C62: the two columns of a file of comma-separated values (what `csv_parse` makes of a text is C37). -/
theorem C62_two_columns {path : Bytes} {e : Csv.Error} {c1 c2 : Csv.Column} {cols : List Csv.Column} (hf : s.file path = some c) (h0 : (0 : UInt8) ∉ c) (hne : c ≠ [])
    (hc : Calm s) (hp : Csv.parse c false 44 = .ok (e, c1 :: c2 :: cols)) : ∃ s', parseCsvTwoColumns s path = .ok ((c1.cells, c2.cells), s') ∧ Unchanged s s' := by
  obtain ⟨s', e, h⟩ := C62_read_contents true hf hne hc
  refine ⟨s', ?_, h⟩
  unfold parseCsvTwoColumns
  simp only [Res.bind_eq, e, Res.ok_bind, textOf_map, if_true, cut_zero h0, hp]
  rfl

theorem C62_one_column {path : Bytes} {e : Csv.Error} {c1 : Csv.Column} {cols : List Csv.Column} (hf : s.file path = some c) (h0 : (0 : UInt8) ∉ c) (hne : c ≠ [])
    (hc : Calm s) (hp : Csv.parse c false 44 = .ok (e, c1 :: cols)) : ∃ s', parseCsvOneColumn s path = .ok (c1.cells, s') ∧ Unchanged s s' := by
  obtain ⟨s', e, h⟩ := C62_read_contents true hf hne hc
  refine ⟨s', ?_, h⟩
  unfold parseCsvOneColumn
  simp only [Res.bind_eq, e, Res.ok_bind, textOf_map, if_true, cut_zero h0, hp]
  rfl

/-- C62 is false of a file with one column: the second one is read behind the end of the columns. -/
theorem C62_two_columns_refuted {path : Bytes} {e : Csv.Error} {c1 : Csv.Column} (hf : s.file path = some c) (h0 : (0 : UInt8) ∉ c) (hne : c ≠ [])
    (hc : Calm s) (hp : Csv.parse c false 44 = .ok (e, [c1])) : parseCsvTwoColumns s path = .ub := by
  obtain ⟨s', e, h⟩ := C62_read_contents true hf hne hc
  unfold parseCsvTwoColumns
  simp only [Res.bind_eq, e, Res.ok_bind, textOf_map, if_true, cut_zero h0, hp]
  rfl

/-! ## The builder -/

theorem openWrite {path : Bytes} (hp : s.os.disk.look path = none ∨ ∃ c, s.file path = some c) (hc : nextFate s ≠ .fails) :
    ∃ f s' n, fileOpenMode s 2 path = .ok (.NONE, f, s') ∧ Opened s s' f path n ∧ IsOpen s' f n ⟨false, true, false⟩ [] 0 ∧ s'.os.fates = s.os.fates.tail ∧
      ∀ m, s.os.disk.look path = some m → m = n := by
  rcases hp with hp | ⟨c, hp⟩
  · obtain ⟨f, s', n, h1, -, h2, h3, h4⟩ := C62_open_creates .write rfl hp hc
    exact ⟨f, s', n, h1, h2, h3, h4, fun m hm => by rw [hp] at hm; cases hm⟩
  · obtain ⟨f, s', n, h1, hl, h2, h3, h4⟩ := C62_open_existing .write hp hc
    exact ⟨f, s', n, h1, h2, h3, h4, fun m hm => by rw [hl] at hm; cases hm; rfl⟩

/-- What there is on a disk under a name. -/
def Disk.file (d : Disk) (path : Bytes) : Option Bytes :=
  match d.look path with
  | none => none
  | some n => (d.nodes[n]?).bind fun x => if x.seekable then some x.data else none

/-- What a builder leaves: the file `path` (number `n`) with the bytes `t`, everything else as it was. If the process is killed on the way, the next one finds
the state before, or the file with a beginning of `t` and everything else as it was. -/
structure Built (s s' : Sys) (path t : Bytes) (n : Nat) : Prop where
  file : s'.file path = some t
  here : s'.os.disk.look path = some n
  names : ∀ q, q ≠ path → s'.os.disk.look q = s.os.disk.look q
  nodes : ∀ m, m ≠ n → s'.os.disk.nodes[m]? = s.os.disk.nodes[m]?
  fds : ∀ i, s'.os.descr i = s.os.descr i
  heap : ∀ b : Nat, (s'.heap[b]?).join = (s.heap[b]?).join
  std : s'.stdSet = s.stdSet ∧ s'.std = s.std
  calls : s'.os.fates = s.os.fates.drop 2
  killed : ∀ x ∈ s'.os.history, x ∈ s.os.history ∨
    ((∃ j, Disk.file x path = some (t.take j)) ∧ (∀ q, q ≠ path → x.look q = s.os.disk.look q) ∧ ∀ m, m ≠ n → x.nodes[m]? = s.os.disk.nodes[m]?)

theorem store_keeps {a : Os.Os} {n at' : Nat} {old d : Bytes} {k : Nat} {x : Disk} (hx : x ∈ a.history) : x ∈ (a.store n at' old d k).history := by
  induction k with
  | zero => exact hx
  | succ k ih => exact List.mem_cons_of_mem _ ih

/-- A write forgets no state. -/
theorem write_any_history {f : FileInfo} {n : Nat} {u : Use} {p : Nat} (h : IsOpen s f n u c p) (d : Bytes) : ∀ x ∈ s.os.history, x ∈ (fileWrite s f d).2.2.os.history := by
  intro x hx
  have e4 : ((p : Int) + d.length).toNat = p + d.length := by omega
  by_cases hr : refuses s u = true
  · have e3 := seek_run (drawn_open h) (o := (p : Int) + d.length) (by omega)
    unfold fileWrite fileTell fileWriteAt fileSeek
    simp only [tell_run h, Option.getD_some, write_refused h hr, e3]
    exact hx
  · have hr : refuses s u = false := by simpa using hr
    have h1 := wrote_open (drawn_open h) (putsAt s.os.linux u c p p) d (goes_le s d.length)
    have h2 := h1.moved (putsAt s.os.linux u c p p + goes s d.length)
    have e3 := seek_run h2 (o := (p : Int) + d.length) (by omega)
    unfold fileWrite fileTell fileWriteAt fileSeek
    simp only [tell_run h, Option.getD_some, write_run h hr, if_true, e3]
    exact store_keeps (a := (drawn s).os) hx

/-- What the system does with the second call from now. -/
def secondFate (s : Sys) : Fate := s.os.fates.tail.headD .full

/-- A session of the builder whose texts are `ts`, whatever the system does once the file is open: it is written with a beginning of the text. -/
theorem session_run {fatal lt : Bool} {e : Ser.Env} {fuel size : Nat} {l : List Builder.Op} {ts : List Bytes} (hl : Builder.PrintsAll e fuel l ts) {path : Bytes}
    (hp : s.os.disk.look path = none ∨ ∃ c, s.file path = some c) (h1 : nextFate s ≠ .fails) (h2 : fatal = true → secondFate s ≠ .fails) :
    ∃ b s' n k, builderSession fatal lt e fuel size s path l = .ok (b, s') ∧ Built s s' path (ts.flatten.take k) n ∧ (secondFate s = .full → ts.flatten.length ≤ k) ∧
      ((∃ c, s.file path = some c) → ∃ x ∈ s'.os.history, Disk.file x path = some []) := by
  obtain ⟨f, s1, n, e1, ho, o1, t1, hn⟩ := openWrite hp h1
  have hs := Builder.C40_concatenates (lt := lt) (size := size) hl
  unfold Builder.session at hs
  obtain ⟨sb, r1, r2⟩ := Res.bind_eq_ok.mp hs
  obtain ⟨ok, k, s2, e2, hk, o2, y2, hok, hok0, hfull, t2, hkill⟩ := C62_write_any o1 ts.flatten
  have hnf : nextFate s1 = secondFate s := by unfold nextFate secondFate; rw [t1]
  obtain ⟨g, s3, e3, k1, k2, k3, k4, k5, k6, k8⟩ := close_run ho o2 ⟨rfl, rfl, rfl⟩ y2
  have htk : ∀ d : Bytes, takes ⟨false, true, false⟩ [] 0 d = d := fun d => patched_end [] d
  simp only [htk] at o2 hkill
  have hfail : ¬ (ok = false ∧ fatal = true) := by
    rintro ⟨ho, hf⟩
    rcases hok.mp ho with hh | hh
    · exact h2 hf (hnf ▸ hh)
    · cases hh
  refine ⟨⟨g, none⟩, s3, n, k, ?_, ?_, ?_, ?_⟩
  · unfold builderSession builderOpen builderRun builderWrite
    simp only [Res.bind_eq, e1, Res.ok_bind, if_true, Res.pure_eq, r1, r2, e2]
    rw [if_neg hfail, e3]
    rfl
  · refine ⟨?_, ?_, ?_, ?_, k1, k2, ⟨k3, k4⟩, by rw [k8, t2, t1]; rcases s.os.fates with _ | ⟨_, _ | ⟨_, _⟩⟩ <;> rfl, ?_⟩
    · refine file_of (n := n) ?_ ?_
      · rw [k5]
        unfold Disk.look
        rw [y2.names]
        exact ho.here
      · rw [k5]
        exact o2.node
    · rw [k5]
      unfold Disk.look
      rw [y2.names]
      exact ho.here
    · intro q hq
      rw [k5]
      unfold Disk.look
      rw [y2.names]
      exact ho.names q hq
    · intro m hm
      rw [k5, y2.nodes m hm, ho.nodes m hm]
    · intro x hx
      rw [k6] at hx
      have hlook : ∀ {x : Disk} q, x.names = s1.os.disk.names → x.look q = s1.os.disk.look q := fun q h => by unfold Disk.look; rw [h]
      rcases hkill x hx with hh | ⟨j, hj, hx1⟩
      · rcases ho.killed x hh with hh | rfl
        · exact .inl hh
        · refine .inr ⟨⟨0, ?_⟩, ho.names, ho.nodes⟩
          unfold Disk.file
          rw [ho.here]
          simp [o1.node]
      · rcases y2.killed x hx with hh | ⟨hx2, hx3⟩
        · rcases ho.killed x hh with hh | rfl
          · exact .inl hh
          · refine .inr ⟨⟨0, ?_⟩, ho.names, ho.nodes⟩
            unfold Disk.file
            rw [ho.here]
            simp [o1.node]
        · refine .inr ⟨⟨j, ?_⟩, fun q hq => (hlook q hx2).trans (ho.names q hq), fun m hm => (hx3 m hm).trans (ho.nodes m hm)⟩
          unfold Disk.file
          rw [hlook path hx2, ho.here]
          simp [hx1, List.take_take, Nat.min_eq_left hj]
  · intro hh
    have : ok = true := by
      cases ok with
      | true => rfl
      | false =>
        rcases hok.mp rfl with h3 | h3
        · rw [hnf, hh] at h3; cases h3
        · cases h3
    rw [hfull (hnf.trans hh) this]
    exact Nat.le_refl _
  · rintro ⟨c, hc⟩
    refine ⟨s1.os.disk, ?_, ?_⟩
    · rw [k6]
      have hm : s1.os.disk ∈ s1.os.history := by
        obtain ⟨n', hn1, hn2⟩ := file_some hc
        have e' : s.os.openAt path ⟨false, true, true, true, false⟩ = ((s.os.draw.2).become ((s.os.draw.2).disk.put n' [])).newFd ⟨n', 0, false, true, false⟩ := by
          unfold Os.Os.openAt
          simp only [show s.os.draw.1 = nextFate s from rfl, h1, if_false, show s.os.draw.2.disk.look path = some n' from hn1, Os.Os.node?,
            show s.os.draw.2.disk.nodes[n']? = some ⟨true, c⟩ from hn2, Bool.and_true, if_true]
        have e1' := open_run (m := .write) e'
        have e1'' : fileOpenMode s 2 path = _ := e1'
        rw [e1] at e1''
        cases e1''
        exact List.mem_cons_self ..
      have hw := write_any_history o1 ts.flatten
      rw [e2] at hw
      exact hw _ hm
    · unfold Disk.file
      rw [ho.here]
      simp [o1.node]

end Verif.Files
