import Verif.Props.Tools
/-! # C63 Other programs: a code through a scratch file -/
namespace Verif.Tools
open Verif.Os Verif.Files Verif.SB Verif.Fmt

theorem first_space : ∀ {a a' b b' : Bytes}, (32 : UInt8) ∉ a → (32 : UInt8) ∉ a' → a ++ 32 :: b = a' ++ 32 :: b' → a = a' ∧ b = b'
  | [], [], _, _, _, _, h => ⟨rfl, by simpa using h⟩
  | [], x :: a', _, _, _, h', h => by
    rw [List.nil_append, List.cons_append, List.cons.injEq] at h
    exact absurd (List.mem_cons_self ..) (h.1 ▸ h')
  | x :: a, [], _, _, h', _, h => by
    rw [List.nil_append, List.cons_append, List.cons.injEq] at h
    exact absurd (List.mem_cons_self ..) (h.1 ▸ h')
  | x :: a, y :: a', _, _, h1, h2, h => by
    rw [List.cons_append, List.cons_append, List.cons.injEq] at h
    obtain ⟨e1, e2⟩ := first_space (fun hh => h1 (List.mem_cons_of_mem _ hh)) (fun hh => h2 (List.mem_cons_of_mem _ hh)) h.2
    exact ⟨by rw [h.1, e1], e2⟩

/-- C63: names without spaces are told apart: different requests are different commands. -/
theorem C63_told_apart {path style path' style' : Bytes} (h1 : (32 : UInt8) ∉ style) (h2 : (32 : UInt8) ∉ style') (h : clangCommand path style = clangCommand path' style') :
    path = path' ∧ style = style' := by
  unfold clangCommand at h
  simp only [List.append_assoc, List.append_cancel_left_eq] at h
  obtain ⟨e1, e2⟩ := first_space h1 h2 (b := path) (b' := path') h
  exact ⟨e2, e1⟩

/-- C63: the same for `refactor`. -/
theorem C63_told_apart_refactor {path script path' script' : Bytes} (h1 : (32 : UInt8) ∉ path) (h2 : (32 : UInt8) ∉ path') (h : refactorCommand path script = refactorCommand path' script') :
    path = path' ∧ script = script' := by
  unfold refactorCommand at h
  simp only [List.append_assoc, List.append_cancel_left_eq] at h
  obtain ⟨e1, e2⟩ := first_space h1 h2 (b := b!"-spec=" ++ (script ++ b!" ")) (b' := b!"-spec=" ++ (script' ++ b!" ")) h
  refine ⟨e1, ?_⟩
  rw [List.append_cancel_left_eq] at e2
  exact List.append_cancel_right e2

/-! ## The scratch file -/

/-- The state of the disk that the other programs leave, when `d` is what they find. -/
def leave (sh : Shell) (scratch : Bytes) (script style : Option Bytes) (d : Disk) : Disk :=
  let d := match script with
    | none => d
    | some x => sh (refactorCommand scratch x) d
  match style with
  | none => d
  | some x => sh (clangCommand scratch x) d

theorem file_eq (s : Sys) (p : Bytes) : s.file p = Disk.file s.os.disk p := by
  unfold Sys.file Disk.file
  cases s.os.disk.look p with
  | none => rfl
  | some n =>
    simp only []
    rcases h : s.os.disk.nodes[n]? with _ | ⟨b, c⟩
    · rfl
    · cases b <;> rfl

/-- The names of a disk without one of them. -/
def Disk.without (d : Disk) (path : Bytes) : Disk := { d with names := d.names.filter fun x => x.1 != path }

theorem without_look (d : Disk) (path q : Bytes) : (Disk.without d path).look q = if q = path then none else d.look q := by
  unfold Disk.without Disk.look
  simp only []
  split
  · next h =>
    subst h
    rw [List.find?_eq_none.mpr]
    · rfl
    · intro x hx
      have := (List.mem_filter.mp hx).2
      simpa using this
  · next h =>
    congr 1
    induction d.names with
    | nil => rfl
    | cons a l ih =>
      by_cases ha : a.1 = path
      · rw [List.filter_cons_of_neg (by simp [ha]), ih, List.find?_cons_of_neg (by simp; exact fun e => h (by rw [← e, ha]))]
      · rw [List.filter_cons_of_pos (by simpa using ha)]
        by_cases hq : a.1 = q
        · rw [List.find?_cons_of_pos (by simpa using hq), List.find?_cons_of_pos (by simpa using hq)]
        · rw [List.find?_cons_of_neg (by simpa using hq), List.find?_cons_of_neg (by simpa using hq), ih]

theorem remove_disk {s : Sys} {path : Bytes} {n : Nat} (hc : Calm s) (h : s.os.disk.look path = some n) :
    (remove s path).os.disk = Disk.without s.os.disk path ∧ (remove s path).os.fds = s.os.fds ∧ (remove s path).os.history = Disk.without s.os.disk path :: s.os.history ∧
      (remove s path).heap = s.heap ∧ (remove s path).stdSet = s.stdSet ∧ (remove s path).std = s.std := by
  have hf : s.os.fates = [] := hc
  unfold remove Os.Os.draw
  simp only [hf, List.headD_nil, List.drop_nil]
  rw [if_neg (by decide), h]
  exact ⟨rfl, rfl, rfl, rfl, rfl, rfl⟩

/-- What `code_refactor_and_format` leaves on the disk, when `d` is the state the other programs left: the scratch file is gone, everything else is as in `d`. -/
structure Cleared (s s' : Sys) (d : Disk) (scratch : Bytes) : Prop where
  gone : s'.os.disk.look scratch = none
  names : ∀ q, q ≠ scratch → s'.os.disk.look q = d.look q
  nodes : s'.os.disk.nodes = d.nodes
  fds : ∀ i, s'.os.descr i = s.os.descr i
  heap : ∀ b : Nat, (s'.heap[b]?).join = (s.heap[b]?).join
  std : s'.stdSet = s.stdSet ∧ s'.std = s.std

variable {s : Sys}

/-- A command that was run, or not. -/
def ran (sh : Shell) (cmd : Bytes → Bytes) (d : Disk) : Option Bytes → Disk
  | none => d
  | some y => sh (cmd y) d

theorem optionally_run (sh : Shell) (cmd : Bytes → Bytes) (f : Sys → Bytes → Res Sys) (s : Sys) (x : Option Bytes)
    (h : ∀ y, x = some y → f s y = .ok { s with os := s.os.become (sh (cmd y) s.os.disk) }) :
    ∃ s1, optionally f s x = .ok s1 ∧ s1.os.disk = ran sh cmd s.os.disk x ∧ s1.os.fds = s.os.fds ∧ s1.os.fates = s.os.fates ∧ s1.heap = s.heap ∧ s1.stdSet = s.stdSet ∧ s1.std = s.std := by
  cases x with
  | none => exact ⟨s, rfl, rfl, rfl, rfl, rfl, rfl, rfl⟩
  | some y => exact ⟨_, h y rfl, rfl, rfl, rfl, rfl, rfl, rfl⟩

theorem leave_eq (sh : Shell) (scratch : Bytes) (script style : Option Bytes) (d : Disk) :
    leave sh scratch script style d = ran sh (clangCommand scratch) (ran sh (refactorCommand scratch) d script) style := by
  cases script <;> cases style <;> rfl

theorem file_node {d : Disk} {p c : Bytes} {n : Nat} (h : Disk.file d p = some c) (hn : d.look p = some n) : d.nodes[n]? = some ⟨true, c⟩ := by
  unfold Disk.file at h
  rw [hn] at h
  simp only [] at h
  rcases hh : d.nodes[n]? with _ | ⟨b, x⟩
  · rw [hh] at h
    cases h
  · rw [hh] at h
    cases b
    · cases h
    · simp at h
      rw [h]

theorem file_look {d : Disk} {p c : Bytes} (h : Disk.file d p = some c) : ∃ n, d.look p = some n := by
  unfold Disk.file at h
  cases hh : d.look p with
  | none => rw [hh] at h; cases h
  | some n => exact ⟨n, rfl⟩

/-- C63: `code_refactor_and_format` writes the text of the code to the scratch file, runs the commands asked for, and gives what `scan_file` makes of what they
leave in the file, whatever they do. The scratch file is gone then; nothing else was changed by the library. -/
theorem C63_through_tools {fatal lt : Bool} {sh : Shell} {e : Ser.Env} {fuel size : Nat} {code : Nat} {scratch t : Bytes} {script style : Option Bytes}
    (ht : Ser.codeToStr e fuel code = .ok t) (hp : s.os.disk.look scratch = none ∨ ∃ c, s.file scratch = some c) (hc : Calm s) (ha : Arg' scratch)
    (hr : ∀ x, script = some x → Arg' x) (hy : ∀ x, style = some x → Arg' x) :
    ∃ d n, Rewritten s.os.disk d scratch n t ∧ ∀ c, c ≠ [] → Disk.file (leave sh scratch script style d) scratch = some c →
      ∃ s', refactorAndFormat fatal lt sh e fuel size s code scratch script style = (Scanner.scanFile lt c).bind (fun r => .ok (r, s')) ∧ Cleared s s' (leave sh scratch script style d) scratch := by
  have hl : Builder.PrintsAll e fuel [.print code] [t] := .cons (.print ht) .nil
  have hf : s.os.fates = [] := hc
  obtain ⟨b, s1, n, e1, hb⟩ := C62_builder (fatal := fatal) (lt := lt) (size := size) hl hp hc
  have hb : Built s s1 scratch t n := by simpa using hb
  have hb1 := hb.file
  rw [file_eq] at hb1
  refine ⟨s1.os.disk, n, ⟨hb.here, file_node hb1 hb.here, hb.names, hb.nodes⟩, fun c hne hfile => ?_⟩
  rw [leave_eq] at hfile ⊢
  obtain ⟨s2, e2, d2, f2, t2, p2, a2, b2⟩ := optionally_run sh (refactorCommand scratch) (fun s script => refactorFile lt sh s scratch script) s1 script (fun y h => C63_refactor ha (hr y h))
  obtain ⟨s3, e3, d3, f3, t3, p3, a3, b3⟩ := optionally_run sh (clangCommand scratch) (fun s style => clangFormatFile lt sh s scratch (some style)) s2 style (fun y h => C63_clang_format ha.1 (hy y h))
  rw [← d2, ← d3] at hfile
  have hc3 : Calm s3 := by
    show s3.os.fates = []
    rw [t3, t2, hb.calls, hf]
    rfl
  obtain ⟨s4, e4, u4⟩ := C62_scan_file (lt := lt) (s := s3) ((file_eq _ _).trans hfile) hne hc3
  obtain ⟨m, hm⟩ := file_look hfile
  have hm4 : s4.os.disk.look scratch = some m := by rw [u4.disk]; exact hm
  obtain ⟨r1, r2, r3, r4, r5, r6⟩ := remove_disk (u4.calm hc3) hm4
  refine ⟨remove s4 scratch, ?_, ?_⟩
  · unfold refactorAndFormat
    simp only [Res.bind_eq]
    rw [e1, Res.ok_bind]
    simp only []
    rw [e2, Res.ok_bind, e3, Res.ok_bind, e4]
    cases Scanner.scanFile lt c <;> rfl
  · have hfd : ∀ i, (remove s4 scratch).os.descr i = s.os.descr i := fun i => by
      have h1 : (remove s4 scratch).os.descr i = s4.os.descr i := by unfold Os.Os.descr; rw [r2]
      have h2 : s3.os.descr i = s1.os.descr i := by unfold Os.Os.descr; rw [f3, f2]
      rw [h1, u4.fds, h2, hb.fds]
    refine ⟨?_, (fun q hq => ?_), ?_, hfd, (fun b => ?_), ?_, ?_⟩
    · rw [r1, without_look, if_pos rfl]
    · rw [r1, without_look, if_neg hq, u4.disk, d3, d2]
    · rw [r1]
      show s4.os.disk.nodes = _
      rw [u4.disk, d3, d2]
    · rw [r4, u4.heap, p3, p2, hb.heap]
    · rw [r5, u4.std.1, a3, a2, hb.std.1]
    · rw [r6, u4.std.2, b3, b2, hb.std.2]

/-- C63: without other programs the code comes back as `scan_file` would read it, and the disk is as it was but for the scratch file. -/
theorem C63_no_tools {fatal lt : Bool} {sh : Shell} {e : Ser.Env} {fuel size : Nat} {code : Nat} {scratch t : Bytes} (ht : Ser.codeToStr e fuel code = .ok t) (hne : t ≠ [])
    (hp : s.os.disk.look scratch = none ∨ ∃ c, s.file scratch = some c) (hc : Calm s) (ha : Arg' scratch) :
    ∃ s', refactorAndFormat fatal lt sh e fuel size s code scratch none none = (Scanner.scanFile lt t).bind (fun r => .ok (r, s')) ∧
      s'.os.disk.look scratch = none ∧ (∀ q, q ≠ scratch → s'.os.disk.look q = s.os.disk.look q) ∧ (∀ i, s'.os.descr i = s.os.descr i) ∧
      ∃ n : Nat, ∀ m : Nat, m ≠ n → s'.os.disk.nodes[m]? = s.os.disk.nodes[m]? := by
  obtain ⟨d, n, hw, h⟩ := C63_through_tools (fatal := fatal) (lt := lt) (sh := sh) (size := size) (script := none) (style := none) ht hp hc ha (fun _ h => nomatch h) (fun _ h => nomatch h)
  obtain ⟨s', h1, h2⟩ := h t hne (by
    show Disk.file d scratch = _
    unfold Disk.file
    rw [hw.here]
    simp [hw.node])
  exact ⟨s', h1, h2.gone, (fun q hq => (h2.names q hq).trans (hw.names q hq)), h2.fds, n, fun m hm => by rw [h2.nodes]; exact hw.nodes m hm⟩

/-- C63: with programs that edit the file and touch nothing else, the code is what `scan_file` reads from the refactored and then formatted text. -/
theorem C63_edited {fatal lt : Bool} {sh : Shell} {e : Ser.Env} {fuel size : Nat} {code : Nat} {scratch script style t : Bytes} {f g : Bytes → Bytes}
    (ht : Ser.codeToStr e fuel code = .ok t) (hne : g (f t) ≠ []) (hp : s.os.disk.look scratch = none ∨ ∃ c, s.file scratch = some c) (hc : Calm s)
    (ha : Arg' scratch) (hr : Arg' script) (hy : Arg' style) (hsf : Edits sh (refactorCommand scratch script) scratch f) (hsg : Edits sh (clangCommand scratch style) scratch g) :
    ∃ s', refactorAndFormat fatal lt sh e fuel size s code scratch (some script) (some style) = (Scanner.scanFile lt (g (f t))).bind (fun r => .ok (r, s')) ∧
      s'.os.disk.look scratch = none ∧ (∀ q, q ≠ scratch → s'.os.disk.look q = s.os.disk.look q) ∧ (∀ i, s'.os.descr i = s.os.descr i) ∧
      ∃ n : Nat, ∀ m : Nat, m ≠ n → s'.os.disk.nodes[m]? = s.os.disk.nodes[m]? := by
  obtain ⟨d, n, hw, h⟩ := C63_through_tools (fatal := fatal) (lt := lt) (sh := sh) (size := size) (script := some script) (style := some style) ht hp hc ha
    (fun _ h => by cases h; exact hr) (fun _ h => by cases h; exact hy)
  have w1 := hsf d n t hw.here hw.node
  have w2 := hsg _ n _ w1.here w1.node
  obtain ⟨s', h1, h2⟩ := h (g (f t)) hne (by
    show Disk.file (sh _ (sh _ d)) scratch = _
    unfold Disk.file
    rw [w2.here]
    simp [w2.node])
  refine ⟨s', h1, h2.gone, (fun q hq => ?_), h2.fds, n, fun m hm => ?_⟩
  · rw [h2.names q hq]
    exact ((w2.names q hq).trans (w1.names q hq)).trans (hw.names q hq)
  · rw [h2.nodes]
    exact ((w2.nodes m hm).trans (w1.nodes m hm)).trans (hw.nodes m hm)

/-- C63: if what the other programs leave is empty, or no file at all, the program stops: the code is not silently lost. -/
theorem C63_nothing_left {fatal lt : Bool} {sh : Shell} {e : Ser.Env} {fuel size : Nat} {code : Nat} {scratch t : Bytes} {script style : Option Bytes}
    (ht : Ser.codeToStr e fuel code = .ok t) (hp : s.os.disk.look scratch = none ∨ ∃ c, s.file scratch = some c) (hc : Calm s) (ha : Arg' scratch)
    (hr : ∀ x, script = some x → Arg' x) (hy : ∀ x, style = some x → Arg' x) :
    ∃ d n, Rewritten s.os.disk d scratch n t ∧ (Disk.file (leave sh scratch script style d) scratch = some [] ∨ (leave sh scratch script style d).look scratch = none →
      refactorAndFormat fatal lt sh e fuel size s code scratch script style = .stop) := by
  have hl : Builder.PrintsAll e fuel [.print code] [t] := .cons (.print ht) .nil
  have hf : s.os.fates = [] := hc
  obtain ⟨b, s1, n, e1, hb⟩ := C62_builder (fatal := fatal) (lt := lt) (size := size) hl hp hc
  have hb : Built s s1 scratch t n := by simpa using hb
  have hb1 := hb.file
  rw [file_eq] at hb1
  refine ⟨s1.os.disk, n, ⟨hb.here, file_node hb1 hb.here, hb.names, hb.nodes⟩, fun hfile => ?_⟩
  rw [leave_eq] at hfile
  obtain ⟨s2, e2, d2, f2, t2, p2, a2, b2⟩ := optionally_run sh (refactorCommand scratch) (fun s script => refactorFile lt sh s scratch script) s1 script (fun y h => C63_refactor ha (hr y h))
  obtain ⟨s3, e3, d3, f3, t3, p3, a3, b3⟩ := optionally_run sh (clangCommand scratch) (fun s style => clangFormatFile lt sh s scratch (some style)) s2 style (fun y h => C63_clang_format ha.1 (hy y h))
  rw [← d2, ← d3] at hfile
  have hc3 : Calm s3 := by
    show s3.os.fates = []
    rw [t3, t2, hb.calls, hf]
    rfl
  have e4 : scanPath lt s3 scratch = .stop := C62_scan_file_stops (hfile.elim (fun h => .inl ⟨hc3, (file_eq _ _).trans h⟩) (fun h => .inr (.inl h)))
  unfold refactorAndFormat
  simp only [Res.bind_eq]
  rw [e1, Res.ok_bind]
  simp only []
  rw [e2, Res.ok_bind, e3, Res.ok_bind, e4]
  rfl

/-! ## Cases -/

/-- A program that edits a file. -/
def edit (path : Bytes) (f : Bytes → Bytes) (d : Disk) : Disk :=
  match d.look path with
  | none => d
  | some n => { d with nodes := d.nodes.modify n fun x => { x with data := f x.data } }

/-- A machine with the two programs: `refactor` doubles the text, `clang-format` ends it with a line break. -/
def machine : Shell := fun c d =>
  if c = b!"refactor -num=1 -src=tmp -spec=s " then edit b!"tmp" (fun t => t ++ t) d
  else if c = b!"clang-format -i -verbose -style=file:.cf tmp" then edit b!"tmp" (fun t => t ++ b!"\n") d
  else d

theorem edit_edits {path : Bytes} {f : Bytes → Bytes} {d : Disk} {n : Nat} {t : Bytes} (h1 : d.look path = some n) (h2 : d.nodes[n]? = some ⟨true, t⟩) :
    Rewritten d (edit path f d) path n (f t) := by
  unfold edit
  rw [h1]
  refine ⟨h1, ?_, fun _ _ => rfl, fun m hm => ?_⟩
  · show (d.nodes.modify n _)[n]? = _
    rw [List.getElem?_modify, h2]
    simp
  · show (d.nodes.modify n _)[m]? = _
    rw [List.getElem?_modify]
    cases d.nodes[m]? with
    | none => rfl
    | some x => simp [show n ≠ m from fun h => hm h.symm]

/-- A text goes through both programs. The scratch file had an old content. -/
example : ∃ s', refactorAndFormat true true machine Builder.demoEnv 2 8 (one ⟨true, false, false⟩ b!"old" 0 []) 1 b!"a" none none = .ok (b!"int x;", s') ∧ s'.file b!"a" = none := by
  obtain ⟨s', h1, h2, -⟩ := C63_no_tools (s := one ⟨true, false, false⟩ b!"old" 0 []) (fatal := true) (lt := true) (sh := machine) (e := Builder.demoEnv) (fuel := 2) (size := 8) (code := 1)
    (scratch := b!"a") (t := b!"int x;") (by decide +kernel) (by decide) (.inr ⟨b!"old", rfl⟩) rfl ⟨by decide, by decide⟩
  refine ⟨s', h1, ?_⟩
  unfold Sys.file
  rw [h2]

example : ∃ s', refactorAndFormat true true machine Builder.demoEnv 2 8 (one ⟨true, false, false⟩ b!"old" 0 []) 1 b!"tmp" (some b!"s") (some b!".cf") = .ok (b!"int x;int x;\n", s') ∧
    s'.file b!"tmp" = none := by
  obtain ⟨s', h1, h2, -⟩ := C63_edited (s := one ⟨true, false, false⟩ b!"old" 0 []) (fatal := true) (lt := true) (sh := machine) (e := Builder.demoEnv) (fuel := 2) (size := 8) (code := 1)
    (scratch := b!"tmp") (script := b!"s") (style := b!".cf") (t := b!"int x;") (f := fun t => t ++ t) (g := fun t => t ++ b!"\n") (by decide +kernel) (by decide) (.inl rfl) rfl
    ⟨by decide, by decide⟩ ⟨by decide, by decide⟩ ⟨by decide, by decide⟩ (fun d n t h1 h2 => by
      rw [show machine (refactorCommand b!"tmp" b!"s") d = edit b!"tmp" (fun t => t ++ t) d from if_pos (by decide)]
      exact edit_edits h1 h2) (fun d n t h1 h2 => by
      rw [show machine (clangCommand b!"tmp" b!".cf") d = edit b!"tmp" (fun t => t ++ b!"\n") d from (if_neg (by decide)).trans (if_pos (by decide))]
      exact edit_edits h1 h2)
  refine ⟨s', h1, ?_⟩
  unfold Sys.file
  rw [h2]

/-- A program that removes the file it was to edit. -/
example : ∃ d : Disk, refactorAndFormat true true (fun _ d => { d with names := [] }) Builder.demoEnv 2 8 (one ⟨true, false, false⟩ b!"old" 0 []) 1 b!"tmp" (some b!"s") none = .stop ∧
    d.look b!"tmp" ≠ none := by
  obtain ⟨d, n, h1, h2⟩ := C63_nothing_left (s := one ⟨true, false, false⟩ b!"old" 0 []) (fatal := true) (lt := true) (sh := fun _ d => { d with names := [] }) (e := Builder.demoEnv) (fuel := 2) (size := 8)
    (code := 1) (scratch := b!"tmp") (t := b!"int x;") (script := some b!"s") (style := none) (by decide +kernel) (.inl rfl) rfl ⟨by decide, by decide⟩
    (fun _ h => by cases h; exact ⟨by decide, by decide⟩) (fun _ h => nomatch h)
  exact ⟨d, h2 (.inr rfl), by rw [h1.here]; exact nofun⟩

end Verif.Tools
