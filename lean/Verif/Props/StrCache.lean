import Verif.Proof.StrCache
import Verif.Props.Crc
/-!
# Properties C14 (interning) and C24 (macro registry)

`run cfg (init cfg mem b heap, []) ops` executes a history of `cache_str`, `register_macro` and `register_macros(_arr)`
calls on a fresh context whose first string arena is at `b` and whose backing allocator will return the addresses `heap`.
The second component collects the results of the `cache_str` calls in order.
-/
namespace Verif.Ctx
open Verif.Mem

/-- The strings given to `cache_str`, in order. -/
def cached : List Op → List Bytes
  | [] => []
  | .cache s :: ops => s :: cached ops
  | _ :: ops => cached ops

/-- The registrations made, in order: name, type, flags. -/
def registered : List Op → List (Bytes × Nat × Nat)
  | [] => []
  | .cache _ :: ops => registered ops
  | .register n t f :: ops => (n, t, f) :: registered ops
  | .registerMany ms :: ops => ms ++ registered ops

/-- Every string the history interns. -/
def strings (ops : List Op) : List Bytes := cached ops ++ (registered ops).map (·.1)

/-- The latest registration of a name. -/
def latest (regs : List (Bytes × Nat × Nat)) (name : Bytes) : Option (Nat × Nat) :=
  (regs.reverse.find? (fun x => x.1 = name)).map (·.2)

/-- The environment of a history: a sane configuration, and a backing allocator whose blocks are mapped, aligned, pairwise
disjoint, and enough for one block per interned string. -/
structure Env (cfg : Cfg) (mem : Mem) (b : Nat) (heap : List Nat) (ops : List Op) : Prop where
  mult : 16 ∣ cfg.arenaSize
  small : cfg.arenaSize < 2^63
  blocks : ∀ x ∈ b :: heap, x ≠ 0 ∧ 16 ∣ x ∧ ∀ i, x ≤ i → i < x + cfg.arenaSize → (mem i).isSome
  apart : (b :: heap).Pairwise (fun x y => x + cfg.arenaSize ≤ y ∨ y + cfg.arenaSize ≤ x)
  enough : (strings ops).length ≤ heap.length
  fit : ∀ s ∈ strings ops, s.length + 33 ≤ cfg.arenaSize
  named : ∀ x ∈ registered ops, x.1 ≠ []

/-- No two different strings of the list have the same CRC-32. -/
def NoCollision (l : List Bytes) : Prop := ∀ s ∈ l, ∀ t ∈ l, Crc.crc32 s = Crc.crc32 t → s = t

/-- Invariant of the macro table: it maps the CRC of each registered name to the latest registration under that CRC. -/
def MacInv (st : St) (log : List (Bytes × Ref)) (regs : List (Bytes × Nat × Nat)) : Prop :=
  ∃ m, HTable.Holds st.macros m ∧ ∀ k, match m k with
    | none => ∀ x ∈ regs, key x.1 ≠ k
    | some mc => ∃ n t f, regs.reverse.find? (fun x => key x.1 = k) = some (n, t, f) ∧ mc.type = t ∧ mc.flags = f ∧
        (n, mc.name) ∈ log

theorem macInv_set {cfg : Cfg} {st : St} {log : List (Bytes × Ref)} {regs : List (Bytes × Nat × Nat)} (h : MacInv st log regs)
    (n : Bytes) (r : Ref) (t f : Nat) :
    ∃ tb, st.macros.set cfg.crit (key n) ⟨r, t, f⟩ = .ok tb ∧
      MacInv { st with macros := tb } (log ++ [(n, r)]) (regs ++ [(n, t, f)]) := by
  obtain ⟨m, hm, hs⟩ := h
  obtain ⟨tb, e, h3⟩ := HTable.step_holds cfg.crit hm (.set (key n) (⟨r, t, f⟩ : Macro)) trivial
  refine ⟨tb, e, _, h3, fun k => ?_⟩
  have hk := hs k
  by_cases he : k = key n
  · subst he
    simp only [HTable.spec, if_true]
    exact ⟨n, t, f, by simp, rfl, rfl, by simp⟩
  · simp only [HTable.spec, if_neg he]
    cases hmk : m k with
    | none =>
      rw [hmk] at hk
      simp only at hk ⊢
      intro x hx
      simp only [List.mem_append, List.mem_singleton] at hx
      rcases hx with hx | rfl
      · exact hk x hx
      · exact fun h => he h.symm
    | some mc =>
      rw [hmk] at hk
      obtain ⟨n', t', f', q1, q2, q3, q4⟩ := hk
      refine ⟨n', t', f', ?_, q2, q3, by simp [q4]⟩
      rw [List.reverse_append]
      simp only [List.reverse_cons, List.reverse_nil, List.nil_append, List.cons_append, List.find?_cons]
      rw [decide_eq_false (fun h => he h.symm)]
      exact q1

theorem key_inj {l : List Bytes} (h : NoCollision l) : ∀ s t, s ∈ l → t ∈ l → key s = key t → s = t :=
  fun s t hs ht e => h s hs t ht (BitVec.eq_of_toNat_eq e)

/-- One registration, by either function. -/
theorem register1_spec {cfg : Cfg} {st : St} {log : List (Bytes × Ref)} {regs : List (Bytes × Nat × Nat)}
    (h : Inv cfg st log) (hM : MacInv st log regs) (hc : 16 ∣ cfg.arenaSize)
    (hc2 : cfg.arenaSize < 2^63) {l : List Bytes} (hS : NoCollision l)
    (hlog : ∀ x ∈ log, x.1 ∈ l) (n : Bytes) (t f : Nat) (hs : n ∈ l) (hn : n.length + 33 ≤ cfg.arenaSize)
    (hne : n ≠ []) (hh : 1 ≤ st.heap.length) :
    ∃ r st', registerMacro cfg st n t f = .ok st' ∧ registerMacros1 cfg st n t f = .ok st' ∧
      Inv cfg st' (log ++ [(n, r)]) ∧ MacInv st' (log ++ [(n, r)]) (regs ++ [(n, t, f)]) ∧
      st.heap.length ≤ st'.heap.length + 1 := by
  obtain ⟨r, st1, e1, h1, ma1, he1, -⟩ := cacheStr_spec h hc hc2 (· ∈ l) (key_inj hS) hlog n hs hn hh
  have hM1 : MacInv st1 log regs := by unfold MacInv at hM ⊢; rw [ma1]; exact hM
  obtain ⟨tb, e2, h2⟩ := macInv_set (cfg := cfg) hM1 n r t f
  have hpos : n.length > 0 := List.length_pos_iff.mpr hne
  obtain ⟨i1, i2, -⟩ := h1.stored (n, r) (by simp)
  refine ⟨r, { st1 with macros := tb }, ?_, ?_, ⟨⟨h1.lay.ne, h1.lay.reg, h1.lay.apart, h1.lay.ar⟩, h1.stored, h1.table, h1.dist⟩, h2, he1⟩
  · unfold registerMacro
    rw [Res.assert_true hpos]
    simp only [Res.ok_bind, e1]
    have e2' : st1.macros.set cfg.crit (Crc.crc32 n).toNat ⟨r, t, f⟩ = .ok tb := e2
    rw [e2']; rfl
  · unfold registerMacros1
    rw [Res.assert_true hpos]
    simp only [Res.ok_bind, e1]
    simp only at i1 i2
    rw [i1, i2.load]
    simp only [Res.ofOption_some, Res.ok_bind]
    have e2' : st1.macros.set cfg.crit (Crc.crc32 n).toNat ⟨r, t, f⟩ = .ok tb := e2
    rw [e2']; rfl

theorem registerMany_spec {cfg : Cfg} (hc : 16 ∣ cfg.arenaSize) (hc2 : cfg.arenaSize < 2^63) {l : List Bytes} (hS : NoCollision l) :
    ∀ (ms : List (Bytes × Nat × Nat)) (st : St) (log : List (Bytes × Ref)) (regs : List (Bytes × Nat × Nat)),
    Inv cfg st log → MacInv st log regs → (∀ x ∈ log, x.1 ∈ l) →
    (∀ x ∈ ms, x.1 ∈ l ∧ x.1.length + 33 ≤ cfg.arenaSize ∧ x.1 ≠ []) → ms.length ≤ st.heap.length →
    ∃ st' log', registerMacros cfg st ms = .ok st' ∧ Inv cfg st' log' ∧ MacInv st' log' (regs ++ ms) ∧
      (∀ x ∈ log, x ∈ log') ∧ (∀ x ∈ log', x.1 ∈ l) ∧ st.heap.length ≤ st'.heap.length + ms.length := by
  intro ms
  induction ms with
  | nil => intro st log regs h hM hl _ _; exact ⟨st, log, rfl, h, by simpa using hM, fun _ h => h, hl, by omega⟩
  | cons x ms ih =>
    intro st log regs h hM hl hx hh
    obtain ⟨n, t, f⟩ := x
    obtain ⟨g1, g2, g3⟩ := hx _ List.mem_cons_self
    simp only [List.length_cons] at hh
    obtain ⟨r, st1, -, e1, h1, hM1, he1⟩ := register1_spec h hM hc hc2 hS hl n t f g1 g2 g3 (by omega)
    obtain ⟨st2, log2, e2, h2, hM2, s2, l2, he2⟩ := ih st1 _ _ h1 hM1 (by
      intro x hx
      simp only [List.mem_append, List.mem_singleton] at hx
      rcases hx with hx | rfl
      · exact hl x hx
      · exact g1) (fun x hx' => hx x (List.mem_cons_of_mem _ hx')) (by omega)
    refine ⟨st2, log2, ?_, h2, by simpa using hM2, fun x hx => s2 x (by simp [hx]), l2, by simp only [List.length_cons]; omega⟩
    simp only [registerMacros, e1, Res.ok_bind, e2]

/-- The results `rs` of interning `cs` are recorded in the log. -/
def Recorded (log : List (Bytes × Ref)) (cs : List Bytes) (rs : List Ref) : Prop :=
  rs.length = cs.length ∧ ∀ i (h1 : i < cs.length) (h2 : i < rs.length), (cs[i], rs[i]) ∈ log

theorem Recorded.mono {log log' : List (Bytes × Ref)} {cs rs} (h : Recorded log cs rs) (hs : ∀ x ∈ log, x ∈ log') :
    Recorded log' cs rs := ⟨h.1, fun i h1 h2 => hs _ (h.2 i h1 h2)⟩

theorem Recorded.snoc {log : List (Bytes × Ref)} {cs rs} (h : Recorded log cs rs) (s : Bytes) (r : Ref) :
    Recorded (log ++ [(s, r)]) (cs ++ [s]) (rs ++ [r]) := by
  refine ⟨by simp [h.1], fun i h1 h2 => ?_⟩
  simp only [List.length_append, List.length_cons, List.length_nil] at h1 h2
  by_cases hi : i < cs.length
  · rw [List.getElem_append_left hi, List.getElem_append_left (by rw [h.1]; exact hi)]
    exact List.mem_append_left _ (h.2 i hi (by rw [h.1]; exact hi))
  · have : i = cs.length := by omega
    subst this
    have hl := h.1
    simp [← hl]

theorem run_spec {cfg : Cfg} (hc : 16 ∣ cfg.arenaSize) (hc2 : cfg.arenaSize < 2^63) {l : List Bytes} (hS : NoCollision l) :
    ∀ (ops : List Op) (st : St) (rs : List Ref) (log : List (Bytes × Ref)) (regs : List (Bytes × Nat × Nat)) (cs : List Bytes),
    Inv cfg st log → MacInv st log regs → (∀ x ∈ log, x.1 ∈ l) → Recorded log cs rs →
    (∀ s ∈ strings ops, s ∈ l ∧ s.length + 33 ≤ cfg.arenaSize) → (∀ x ∈ registered ops, x.1 ≠ []) →
    (strings ops).length ≤ st.heap.length →
    ∃ st' rs' log', run cfg (st, rs) ops = .ok (st', rs') ∧ Inv cfg st' log' ∧ MacInv st' log' (regs ++ registered ops) ∧
      Recorded log' (cs ++ cached ops) rs' := by
  intro ops
  induction ops with
  | nil => intro st rs log regs cs h hM _ hr _ _ _; exact ⟨st, rs, log, rfl, h, by simpa [registered] using hM, by simpa [cached] using hr⟩
  | cons op ops ih =>
    intro st rs log regs cs h hM hl hr hs hne hh
    cases op with
    | cache s =>
      have hs0 := hs s (by simp [strings, cached])
      simp only [strings, cached, registered, List.cons_append, List.length_cons] at hh
      obtain ⟨r, st1, e1, h1, ma1, he1, -⟩ := cacheStr_spec h hc hc2 (· ∈ l) (key_inj hS) hl s hs0.1 hs0.2 (by omega)
      have hM1 : MacInv st1 (log ++ [(s, r)]) regs := by
        obtain ⟨m, q1, q2⟩ := hM
        refine ⟨m, by rw [ma1]; exact q1, fun k => ?_⟩
        have := q2 k
        cases hk : m k with
        | none => rw [hk] at this; exact this
        | some mc =>
          rw [hk] at this
          obtain ⟨n, t, f, a, b, c, d⟩ := this
          exact ⟨n, t, f, a, b, c, by simp [d]⟩
      obtain ⟨st2, rs2, log2, e2, h2, hM2, hr2⟩ := ih st1 (rs ++ [r]) _ regs (cs ++ [s]) h1 hM1 (by
        intro x hx
        simp only [List.mem_append, List.mem_singleton] at hx
        rcases hx with hx | rfl
        · exact hl x hx
        · exact hs0.1) (hr.snoc s r) (fun x hx => hs x (by simp [strings, cached, registered] at hx ⊢; simp [hx])) hne (by
          simp only [strings]; omega)
      refine ⟨st2, rs2, log2, ?_, h2, hM2, by simpa [cached] using hr2⟩
      simp only [run, step, e1, Res.ok_bind, e2]
    | register n t f =>
      have hs0 := hs n (by simp [strings, cached, registered])
      simp only [strings, cached, registered, List.length_append, List.length_map, List.length_cons] at hh
      obtain ⟨r, st1, e1, -, h1, hM1, he1⟩ := register1_spec h hM hc hc2 hS hl n t f hs0.1 hs0.2
        (hne (n, t, f) (by simp [registered])) (by omega)
      obtain ⟨st2, rs2, log2, e2, h2, hM2, hr2⟩ := ih st1 rs _ _ cs h1 hM1 (by
        intro x hx
        simp only [List.mem_append, List.mem_singleton] at hx
        rcases hx with hx | rfl
        · exact hl x hx
        · exact hs0.1) (hr.mono (fun x hx => by simp [hx])) (fun x hx => hs x (by
          simp only [strings, cached, registered, List.mem_append, List.map_cons, List.mem_cons] at hx ⊢
          rcases hx with hx | hx <;> simp [hx])) (fun x hx => hne x (by simp [registered, hx])) (by
          simp only [strings, List.length_append, List.length_map]; omega)
      refine ⟨st2, rs2, log2, ?_, h2, by simpa [registered] using hM2, by simpa [cached] using hr2⟩
      simp only [run, step, e1, Res.ok_bind, e2]
    | registerMany ms =>
      simp only [strings, cached, registered, List.length_append, List.length_map] at hh
      obtain ⟨st1, log1, e1, h1, hM1, hs1, hl1, he1⟩ := registerMany_spec hc hc2 hS ms st log regs h hM hl (fun x hx => by
        have q := hs x.1 (by
          simp only [strings, registered, List.map_append, List.mem_append, List.mem_map]
          exact Or.inr (Or.inl ⟨x, hx, rfl⟩))
        exact ⟨q.1, q.2, hne x (by simp [registered, hx])⟩) (by omega)
      obtain ⟨st2, rs2, log2, e2, h2, hM2, hr2⟩ := ih st1 rs _ _ cs h1 hM1 hl1 (hr.mono hs1) (fun x hx => hs x (by
          simp only [strings, cached, registered, List.mem_append, List.map_append] at hx ⊢
          rcases hx with hx | hx <;> simp [hx])) (fun x hx => hne x (by simp [registered, hx])) (by
          simp only [strings, List.length_append, List.length_map]; omega)
      refine ⟨st2, rs2, log2, ?_, h2, by simpa [registered] using hM2, by simpa [cached] using hr2⟩
      simp only [run, step, e1, Res.ok_bind, e2]

theorem holds_empty {α : Type} : HTable.Holds (⟨List.replicate 8 (-1), []⟩ : HTable α) (fun _ => none) := by
  obtain ⟨t0, e0, hw0, hk0, _⟩ := HTable.init_wf (α := α) (n := 8) (by omega)
  have : t0 = ⟨List.replicate 8 (-1), []⟩ := by
    simp only [HTable.initReserve, Res.bind_eq, Res.pure_eq] at e0
    rw [Res.assert_true (by omega)] at e0
    exact (Res.ok.inj e0).symm
  subst this
  exact ⟨hw0, by intro k; rw [hk0]; rfl⟩

theorem init_inv {cfg : Cfg} {mem : Mem} {b : Nat} {heap : List Nat} {ops : List Op} (env : Env cfg mem b heap ops) :
    Inv cfg (init cfg mem b heap) [] ∧ MacInv (init cfg mem b heap) [] [] := by
  refine ⟨⟨⟨by simp [init], ?_, ?_, ?_⟩, by simp, ⟨_, holds_empty, by simp, by simp⟩, by simp⟩, _, holds_empty, by simp⟩
  · exact env.blocks
  · exact env.apart
  · intro a ha
    simp [init] at ha
    subst ha
    simp

/-- C14: for every history of interning and macro registration in which no two different strings share a CRC-32: every
`cache_str` succeeds; at the end of the history every string it returned still holds exactly the bytes given, followed by
a NUL; equal strings (up to the interning limit) got the same pointer; different strings got disjoint storage. -/
theorem C14_interning (cfg : Cfg) (mem : Mem) (b : Nat) (heap : List Nat) (ops : List Op) (env : Env cfg mem b heap ops)
    (hnc : NoCollision (strings ops)) :
    ∃ st rs, run cfg (init cfg mem b heap, []) ops = .ok (st, rs) ∧ rs.length = (cached ops).length ∧
      ∀ i (h1 : i < (cached ops).length) (h2 : i < rs.length),
        rs[i].len = (cached ops)[i].length ∧ st.mem.loadN rs[i].ptr rs[i].len = some (cached ops)[i] ∧
        st.mem (rs[i].ptr + rs[i].len) = some 0 ∧
        ∀ j (g1 : j < (cached ops).length) (g2 : j < rs.length),
          ((cached ops)[i] = (cached ops)[j] → (cached ops)[i].length ≤ cfg.maxLen → rs[i] = rs[j]) ∧
          ((cached ops)[i] ≠ (cached ops)[j] → rs[i].ptr + rs[i].len < rs[j].ptr ∨ rs[j].ptr + rs[j].len < rs[i].ptr) := by
  obtain ⟨hi, hM⟩ := init_inv env
  obtain ⟨st, rs, log, e, h, -, hr⟩ := run_spec env.mult env.small hnc ops _ [] [] [] [] hi hM (by simp) ⟨rfl, by simp⟩
    (fun s hs => ⟨hs, env.fit s hs⟩) env.named env.enough
  simp only [List.nil_append] at hr
  refine ⟨st, rs, e, hr.1, fun i h1 h2 => ?_⟩
  have li := hr.2 i h1 h2
  obtain ⟨a1, a2, -⟩ := h.stored _ li
  refine ⟨a1, by rw [a1]; exact a2.load, by rw [a1]; exact a2.nul, fun j g1 g2 => ?_⟩
  have lj := hr.2 j g1 g2
  obtain ⟨b1, -⟩ := h.stored _ lj
  constructor
  · intro he hlen
    obtain ⟨m, -, -, hm⟩ := h.table
    have q1 := hm _ li hlen
    have q2 := hm _ lj (by simp only; rw [← he]; exact hlen)
    simp only at q1 q2
    rw [he, q2] at q1
    exact (Option.some.inj q1).symm
  · intro hne
    have := h.dist _ li _ lj hne
    simp only at this a1 b1
    omega

/-- C14, refuted without the collision condition: when two different strings share a CRC-32, the second one is answered with
the first one's bytes, in every state and configuration where the first has just been interned. -/
theorem C14_collision_refuted_general (cfg : Cfg) (st st' : St) (s t : Bytes) (r : Ref) (hc : Crc.crc32 s = Crc.crc32 t)
    (hs : s.length ≤ cfg.maxLen) (ht : t.length ≤ cfg.maxLen) (h : cacheStr cfg st s = .ok (r, st'))
    (h2 : ∃ v, st'.cache.get (key s) = .ok (some (some v)) ∧ v = r) : cacheStr cfg st' t = .ok (r, st') := by
  obtain ⟨v, g, rfl⟩ := h2
  unfold cacheStr
  rw [if_neg (by omega)]
  simp only
  rw [← hc, show (Crc.crc32 s).toNat = key s from rfl, g]
  rfl

theorem find?_congr' {α : Type} {p q : α → Bool} : ∀ {l : List α}, (∀ x ∈ l, p x = q x) → l.find? p = l.find? q
  | [], _ => rfl
  | a :: l, h => by
    rw [List.find?_cons, List.find?_cons, h a List.mem_cons_self, find?_congr' (fun x hx => h x (List.mem_cons_of_mem _ hx))]

/-- C24: after every such history, `lookup_macro` of any name (not colliding with a registered one) returns the latest
registration of that name — its type, its flags and a name string with the same bytes — and null if there is none. -/
theorem C24_lookup (cfg : Cfg) (mem : Mem) (b : Nat) (heap : List Nat) (ops : List Op) (env : Env cfg mem b heap ops)
    (name : Bytes) (hnc : NoCollision (name :: strings ops)) :
    ∃ st rs, run cfg (init cfg mem b heap, []) ops = .ok (st, rs) ∧
      match latest (registered ops) name with
      | none => lookupMacro st name = .ok none
      | some (t, f) => ∃ r : Ref, lookupMacro st name = .ok (some (some ⟨r, t, f⟩)) ∧
          r.len = name.length ∧ st.mem.loadN r.ptr r.len = some name := by
  obtain ⟨hi, hM⟩ := init_inv env
  have hnc' : NoCollision (strings ops) := fun s hs t ht => hnc s (List.mem_cons_of_mem _ hs) t (List.mem_cons_of_mem _ ht)
  obtain ⟨st, rs, log, e, h, ⟨m, hm, hk⟩, -⟩ := run_spec env.mult env.small hnc' ops _ [] [] [] [] hi hM (by simp) ⟨rfl, by simp⟩
    (fun s hs => ⟨hs, env.fit s hs⟩) env.named env.enough
  simp only [List.nil_append] at hk
  refine ⟨st, rs, e, ?_⟩
  have hin : ∀ x ∈ registered ops, x.1 ∈ strings ops := fun x hx => by
    simp only [strings, List.mem_append, List.mem_map]; exact Or.inr ⟨x, hx, rfl⟩
  have hcong : (registered ops).reverse.find? (fun x => x.1 = name) = (registered ops).reverse.find? (fun x => key x.1 = key name) := by
    apply find?_congr'
    intro x hx
    rw [List.mem_reverse] at hx
    have : x.1 = name ↔ key x.1 = key name :=
      ⟨fun h => by rw [h], fun h => key_inj hnc _ _ (List.mem_cons_of_mem _ (hin x hx)) List.mem_cons_self h⟩
    simp [this]
  have hl : lookupMacro st name = .ok ((m (key name)).map some) := get_holds hm (key name)
  have hkn := hk (key name)
  unfold latest
  rw [hcong]
  cases hmk : m (key name) with
  | none =>
    rw [hmk] at hkn hl
    have : (registered ops).reverse.find? (fun x => key x.1 = key name) = none := by
      rw [List.find?_eq_none]
      intro x hx
      simpa using hkn x (by simpa using hx)
    rw [this]
    exact hl
  | some mc =>
    rw [hmk] at hkn hl
    obtain ⟨n, t, f, q1, q2, q3, q4⟩ := hkn
    rw [q1]
    have hn : key n = key name := by
      have := List.find?_some q1
      simpa using this
    have hmem : (n, t, f) ∈ registered ops := by
      have := List.mem_of_find?_eq_some q1
      simpa using this
    have hnn : n = name := key_inj hnc _ _ (List.mem_cons_of_mem _ (hin _ hmem)) List.mem_cons_self hn
    subst hnn
    obtain ⟨a1, a2, -⟩ := h.stored _ q4
    simp only at a1 a2
    refine ⟨mc.name, ?_, a1, by rw [a1]; exact a2.load⟩
    rw [hl]
    simp [← q2, ← q3]


/-- A small context for the concrete cases: arenas of 128 bytes, interning up to 40 characters. -/
def tCfg : Cfg := ⟨128, 40, fun n => n * 7 / 10⟩
/-- Memory mapped on `[4096, 8192)`. -/
def tMem : Mem := fun i => if 4096 ≤ i ∧ i < 8192 then some 7 else none
def tOps : List Op := [.cache b!"int", .register b!"FOO" 3 1, .cache b!"plumless", .cache b!"int",
  .registerMany [(b!"BAR", 4, 0), (b!"FOO", 5, 2)], .cache []]

/-- Non-vacuity: a history with interning, registration, re-registration and several arenas meets all the hypotheses. -/
example : Env tCfg tMem 4096 [4352, 4608, 4864, 5120, 5376, 5632, 5888] tOps ∧ NoCollision (b!"FOO" :: strings tOps) ∧
    latest (registered tOps) b!"FOO" = some (5, 2) ∧ latest (registered tOps) b!"QUX" = none := by
  refine ⟨⟨by decide, by decide, ?_, by decide, by decide, by decide, by decide⟩, ?_, by decide, by decide⟩
  · intro x hx
    have hx' : x = 4096 ∨ x = 4352 ∨ x = 4608 ∨ x = 4864 ∨ x = 5120 ∨ x = 5376 ∨ x = 5632 ∨ x = 5888 := by simpa using hx
    refine ⟨by omega, by omega, fun i h1 h2 => ?_⟩
    have h3 : i < x + 128 := h2
    simp only [tMem]
    rw [if_pos (by omega)]; rfl
  · unfold NoCollision; decide +kernel

/-- What of a run can be observed: the results and the bytes they hold at the end. -/
def observe (x : Res (St × List Ref)) : Option (List (Nat × Option Bytes)) :=
  match x with
  | .ok (st, rs) => some (rs.map fun r => (r.ptr, st.mem.loadN r.ptr r.len))
  | _ => none

/-- C14, refuted without the collision condition: `cache_str("buckeroo")` after `cache_str("plumless")` returns the string
`plumless`. -/
theorem C14_collision_refuted :
    observe (run tCfg (init tCfg tMem 4096 [], []) [.cache b!"plumless", .cache b!"buckeroo"]) =
      some [(4128, some b!"plumless"), (4128, some b!"plumless")] := by decide +kernel

/-- C14, refuted beyond the interning limit: equal long strings get different pointers. -/
theorem C14_long_not_shared_refuted :
    observe (run { tCfg with maxLen := 2 } (init tCfg tMem 4096 [], []) [.cache b!"abc", .cache b!"abc"]) =
      some [(4128, some b!"abc"), (4176, some b!"abc")] := by decide +kernel

/-- C14, refuted for a string that does not fit an arena: the call stops the process even though a fresh arena could be
requested. -/
theorem C14_too_long_stops_refuted :
    (match run tCfg (init tCfg tMem 4096 [4352], []) [.cache (List.replicate 96 65)] with | .stop => true | _ => false) = true := by
  decide +kernel

/-- C24, refuted without the collision condition: registering `plumless` makes `buckeroo` a registered macro. -/
theorem C24_collision_refuted :
    (match run tCfg (init tCfg tMem 4096 [], []) [.register b!"plumless" 3 1] with
      | .ok (st, _) => lookupMacro st b!"buckeroo" | _ => .hang) = .ok (some (some ⟨⟨4128, 8⟩, 3, 1⟩)) := by decide +kernel

/-- C24: an empty name is refused (assertion). -/
theorem C24_empty_name_stops (cfg : Cfg) (st : St) (t f : Nat) : registerMacro cfg st [] t f = .stop := by
  simp [registerMacro, Res.assert]

end Verif.Ctx
