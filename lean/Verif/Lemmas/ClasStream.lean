import Verif.Lemmas.ClasWork
import Verif.Lemmas.Mtcp
/-! What the streams of MTCP connections hold, if transfers to the same address do not overlap. -/

namespace Dtn.Clas
open Spec.ClasSpec

variable {A : Type} [DecidableEq A]

set_option linter.unusedSectionVars false

/-- At most one transfer to each address is under way. -/
def One (net : Sock A) (s : State A) : Prop :=
  ∀ i j a, Busy s i → Busy s j → Towards net s i a → Towards net s j a → i = j

/-- The bytes `b` of connection `c` to `a`. -/
structure StrAt (s : State A) (c : Nat) (a : A) (b p : Bytes) : Prop where
  whole : b = Mtcp.sendBuffer (contents s (handedTo s c)) ++ p
  part : p = [] ∨ ∃ (i : Nat) (r : Req A) (rest : Bytes), s.reqs[i]? = some r ∧ Mtcp.encode r.data = p ++ rest ∧ rest ≠ []
  writer : ∀ (i : Nat) (r : Req A) rest, s.reqs[i]? = some r → r.pc = .write a c rest → Mtcp.encode r.data = p ++ rest ∧ rest ≠ []
  fresh : ∀ (i : Nat) (r : Req A), s.reqs[i]? = some r → r.pc = .insert a c → p = []
  idle : AList.get? s.table a = some c → p = [] ∨
    ∃ (i : Nat) (r : Req A), s.reqs[i]? = some r ∧ ((∃ rest, r.pc = .write a c rest) ∨ r.pc = .remove a)

/-- The invariant of the streams. -/
def Str (s : State A) : Prop := ∀ (c : Nat) a b, s.streams[c]? = some (a, b) → ∃ p, StrAt s c a b p

theorem contents_mono {k net} {s t : State A} (h : Inv k net s) (hl : ∀ (j : Nat) (q : Req A), s.reqs[j]? = some q → ∃ p, t.reqs[j]? = some p ∧ p.data = q.data)
    (c : Nat) : contents t (handedTo s c) = contents s (handedTo s c) := by
  unfold contents
  refine List.map_congr_left fun i hi => ?_
  unfold handedTo at hi
  obtain ⟨⟨j, c'⟩, hm, rfl⟩ := List.mem_map.mp hi
  obtain ⟨r, _, _, hr, _⟩ := h.logs.handed j c' (List.mem_filter.mp hm).1
  obtain ⟨p, hp, he⟩ := hl j r hr
  dsimp only
  rw [hr, hp]
  simp [he]

theorem later_data {k net} {s t : State A} {e} (h : Inv k net s) (hs : step k net s e = some t) (j : Nat) (q : Req A)
    (hj : s.reqs[j]? = some q) : ∃ p, t.reqs[j]? = some p ∧ p.data = q.data := by
  obtain ⟨p, h1, h2⟩ := step_later h hs hj
  exact ⟨p, h1, h2.data⟩

/-- `part` holds for ever. -/
theorem part_mono {s t : State A} (hl : ∀ (j : Nat) (q : Req A), s.reqs[j]? = some q → ∃ p, t.reqs[j]? = some p ∧ p.data = q.data) {p : Bytes}
    (h : p = [] ∨ ∃ (i : Nat) (r : Req A) (rest : Bytes), s.reqs[i]? = some r ∧ Mtcp.encode r.data = p ++ rest ∧ rest ≠ []) :
    p = [] ∨ ∃ (i : Nat) (r : Req A) (rest : Bytes), t.reqs[i]? = some r ∧ Mtcp.encode r.data = p ++ rest ∧ rest ≠ [] := by
  rcases h with h | ⟨i, r, rest, h1, h2, h3⟩
  · exact .inl h
  · obtain ⟨q, hq, he⟩ := hl i r h1
    exact .inr ⟨i, q, rest, hq, by rw [he]; exact h2, h3⟩

/-- A transfer touches connection `c` to `a`, or the entry of `a` in the table. -/
def Wet (c : Nat) (a : A) (pc : Pc A) : Prop := (∃ rest, pc = .write a c rest) ∨ pc = .insert a c ∨ pc = .remove a

/-- A transfer touches no stream. -/
def Dry (pc : Pc A) : Prop := ∀ c a, ¬ Wet c a pc

theorem handedTo_same {s t : State A} (h : t.handed = s.handed) (c : Nat) : handedTo t c = handedTo s c := by
  unfold handedTo; rw [h]

/-- A step that does not change a stream, after which the same transfers touch it. -/
theorem strAt_same {k net} {s t : State A} {c : Nat} {a : A} {b p : Bytes} (h : Inv k net s) (hp : StrAt s c a b p)
    (hl : ∀ (j : Nat) (q : Req A), s.reqs[j]? = some q → ∃ p, t.reqs[j]? = some p ∧ p.data = q.data)
    (hw : ∀ (j : Nat) (q : Req A), t.reqs[j]? = some q → Wet c a q.pc → s.reqs[j]? = some q)
    (hw' : ∀ (j : Nat) (q : Req A), s.reqs[j]? = some q → Wet c a q.pc → t.reqs[j]? = some q)
    (hh : handedTo t c = handedTo s c) (ht : AList.get? t.table a = some c → AList.get? s.table a = some c) : StrAt t c a b p := by
  refine ⟨?_, part_mono hl hp.part, ?_, ?_, ?_⟩
  · rw [hh, contents_mono h hl]
    exact hp.whole
  · intro i r rest hr hpc
    exact hp.writer i r rest (hw i r hr (.inl ⟨_, hpc⟩)) hpc
  · intro i r hr hpc
    exact hp.fresh i r (hw i r hr (.inr (.inl hpc))) hpc
  · intro hg
    rcases hp.idle (ht hg) with hn | ⟨i, r, hr, hpc⟩
    · exact .inl hn
    · refine .inr ⟨i, r, hw' i r hr ?_, hpc⟩
      rcases hpc with hpc | hpc
      · exact .inl hpc
      · exact .inr (.inr hpc)

theorem goto_data {s t : State A} {i : Nat} {pc : Pc A} (he : t.reqs = (s.goto i pc).reqs) (j : Nat) (q : Req A) (hj : s.reqs[j]? = some q) :
    ∃ p, t.reqs[j]? = some p ∧ p.data = q.data := by
  rw [he, goto_get]
  by_cases hi : i = j
  · rw [if_pos hi, hj]
    exact ⟨_, rfl, rfl⟩
  · rw [if_neg hi]
    exact ⟨q, hj, rfl⟩

/-- The place of a transfer changes that does not touch the stream, neither before nor after. -/
theorem strAt_goto {k net} {s t : State A} {i c : Nat} {r : Req A} {a : A} {b p : Bytes} {pc : Pc A} (h : Inv k net s)
    (hp : StrAt s c a b p) (hr : s.reqs[i]? = some r) (h1 : ¬ Wet c a r.pc) (h2 : ¬ Wet c a pc) (he : t.reqs = (s.goto i pc).reqs)
    (hh : handedTo t c = handedTo s c) (ht : AList.get? t.table a = some c → AList.get? s.table a = some c) : StrAt t c a b p := by
  refine strAt_same h hp (goto_data he) ?_ ?_ hh ht
  · intro j q hj hd
    rw [he, goto_get] at hj
    by_cases hi : i = j
    · subst hi
      rw [if_pos rfl, hr] at hj
      cases hj
      exact absurd hd h2
    · rw [if_neg hi] at hj
      exact hj
  · intro j q hj hd
    rw [he, goto_get]
    by_cases hi : i = j
    · subst hi
      rw [hr] at hj
      cases hj
      exact absurd hd h1
    · rw [if_neg hi]
      exact hj

/-- A transfer goes from one dry place to another. -/
theorem str_goto {k net} {s : State A} {i : Nat} {r : Req A} (h : Inv k net s) (hstr : Str s) (hr : s.reqs[i]? = some r)
    (h1 : Dry r.pc) {pc : Pc A} (h2 : Dry pc) {t : State A} (he : t.reqs = (s.goto i pc).reqs)
    (hst : t.streams = s.streams) (hh : t.handed = s.handed) (ht : t.table = s.table) : Str t := by
  intro c a b hc
  rw [hst] at hc
  obtain ⟨p, hp⟩ := hstr c a b hc
  exact ⟨p, strAt_goto h hp hr (h1 c a) (h2 c a) he (handedTo_same hh c) (by rw [ht]; exact id)⟩

theorem wet_busy {c : Nat} {a : A} {q : Req A} (h : Wet c a q.pc) : q.pc ≠ .queued ∧ ∀ ans, q.pc ≠ .done ans := by
  rcases h with ⟨rest, h⟩ | h | h <;> rw [h] <;> simp

theorem wet_dest {k net} {s : State A} {j c : Nat} {q : Req A} {a : A} (h : Inv k net s) (hj : s.reqs[j]? = some q) (hw : Wet c a q.pc) :
    net.parse q.dest = some a := by
  have hok := h.ok j q hj
  unfold Ok at hok
  rcases hw with ⟨rest, hq⟩ | hq | hq <;> rw [hq] at hok <;> exact hok.2.1

/-- Only the transfer under way to `a` can touch streams to `a`. -/
theorem wet_one {k net} {s : State A} (h : Inv k net s) (ho : One net s) {i : Nat} {r : Req A} {a : A} (hr : s.reqs[i]? = some r)
    (hb : r.pc ≠ .queued ∧ ∀ ans, r.pc ≠ .done ans) (hd : net.parse r.dest = some a)
    {j c : Nat} {q : Req A} (hj : s.reqs[j]? = some q) (hw : Wet c a q.pc) : j = i ∧ q = r := by
  have := ho j i a ⟨q, hj, wet_busy hw⟩ ⟨r, hr, hb⟩ ⟨q, hj, wet_dest h hj hw⟩ ⟨r, hr, hd⟩
  subst this
  rw [hr] at hj
  cases hj
  exact ⟨rfl, rfl⟩

/-- The same after the transfer went on. -/
theorem wet_goto {k net} {s t : State A} (h : Inv k net s) (ho : One net s) {i : Nat} {r : Req A} {a : A} {pc : Pc A}
    (hr : s.reqs[i]? = some r) (hb : r.pc ≠ .queued ∧ ∀ ans, r.pc ≠ .done ans) (hd : net.parse r.dest = some a)
    (he : t.reqs = (s.goto i pc).reqs) {j c : Nat} {q : Req A} (hj : t.reqs[j]? = some q) (hw : Wet c a q.pc) :
    j = i ∧ q = { r with pc := pc } := by
  rw [he, goto_get] at hj
  by_cases hi : i = j
  · subst hi
    rw [if_pos rfl, hr] at hj
    cases hj
    exact ⟨rfl, rfl⟩
  · rw [if_neg hi] at hj
    obtain ⟨rfl, rfl⟩ := wet_one h ho hr hb hd hj hw
    exact absurd rfl hi

theorem encode_ne_nil (d : Bytes) : Mtcp.encode d ≠ [] := by
  unfold Mtcp.encode Mtcp.header
  intro h
  have := congrArg List.length h
  split at this
  · simp at this
  · split at this
    · simp at this
    · split at this
      · simp at this
      · split at this <;> simp at this

theorem sendBuffer_one (d : Bytes) : Mtcp.sendBuffer [d] = Mtcp.encode d := by
  rw [Mtcp.sendBuffer_eq]; simp

theorem sendBuffer_eq_append (ds es : List Bytes) : Mtcp.sendBuffer (ds ++ es) = Mtcp.sendBuffer ds ++ Mtcp.sendBuffer es := by
  rw [Mtcp.sendBuffer_eq, Mtcp.sendBuffer_eq, Mtcp.sendBuffer_eq]; simp

/-- If the transfer under way to `a` touches no stream, the connection in the table is at the end of a frame. -/
theorem idle_nil {k net} {s : State A} {i : Nat} {r : Req A} {a : A} (h : Inv k net s) (ho : One net s) (hr : s.reqs[i]? = some r)
    (hb : r.pc ≠ .queued ∧ ∀ ans, r.pc ≠ .done ans) (hdest : net.parse r.dest = some a) {c : Nat}
    (hd : ¬ ((∃ rest, r.pc = .write a c rest) ∨ r.pc = .remove a)) {b p : Bytes} (hp : StrAt s c a b p)
    (hg : AList.get? s.table a = some c) : p = [] := by
  rcases hp.idle hg with hn | ⟨j, q, hj, hq⟩
  · exact hn
  · obtain ⟨_, rfl⟩ := wet_one h ho hr hb hdest (c := c) hj (by
      rcases hq with hq | hq
      · exact .inl hq
      · exact .inr (.inr hq))
    exact absurd hq hd

theorem str_connect {k net} {s t : State A} {i : Nat} {r : Req A} {a : A} (h : Inv k net s) (hstr : Str s)
    (hr : s.reqs[i]? = some r) (hp : r.pc = .connect a) (he : t.reqs = (s.goto i (.insert a s.streams.length)).reqs)
    (hst : t.streams = s.streams ++ [(a, [])]) (hh : t.handed = s.handed) (ht : t.table = s.table) : Str t := by
  have hdry : ∀ c a, ¬ Wet c a r.pc := by intro c a; rw [hp]; rintro (⟨_, h⟩ | h | h) <;> cases h
  intro c a' b hc
  rw [hst] at hc
  by_cases hlt : c < s.streams.length
  · rw [List.getElem?_append_left hlt] at hc
    obtain ⟨p, hp'⟩ := hstr c a' b hc
    refine ⟨p, strAt_goto h hp' hr (hdry _ _) ?_ he (handedTo_same hh c) (by rw [ht]; exact id)⟩
    rintro (⟨_, h⟩ | h | h) <;> cases h
    exact absurd hlt (Nat.lt_irrefl _)
  · have hce : c = s.streams.length := by
      have := (List.getElem?_eq_some_iff.mp hc).1
      simp at this
      omega
    subst hce
    simp at hc
    obtain ⟨rfl, rfl⟩ := hc
    have hnone : handedTo s s.streams.length = [] := by
      unfold handedTo
      rw [List.map_eq_nil_iff, List.filter_eq_nil_iff]
      rintro ⟨j, c⟩ hm hc
      obtain ⟨_, _, _, _, _, _, _, h5⟩ := h.logs.handed j c hm
      have hc : c = s.streams.length := by simpa using hc
      rw [hc, List.getElem?_eq_none (Nat.le_refl _)] at h5
      cases h5
    refine ⟨[], ?_, .inl rfl, ?_, fun _ _ _ _ => rfl, fun _ => .inl rfl⟩
    · rw [handedTo_same hh, hnone]; rfl
    · intro j q rest hj hq
      rw [he, goto_get] at hj
      by_cases hi : i = j
      · subst hi
        rw [if_pos rfl, hr] at hj
        cases hj
        cases hq
      · rw [if_neg hi] at hj
        have hok := h.ok j q hj
        unfold Ok at hok
        rw [hq] at hok
        obtain ⟨b, hb⟩ := hok.2.2.2
        rw [List.getElem?_eq_none (Nat.le_refl _)] at hb
        cases hb

theorem str_insert {k net} {s t : State A} {i : Nat} {r : Req A} {a : A} {c : Nat} (h : Inv k net s) (hstr : Str s) (ho : One net s)
    (hr : s.reqs[i]? = some r) (hp : r.pc = .insert a c) (he : t.reqs = (s.goto i (.get a)).reqs)
    (hst : t.streams = s.streams) (hh : t.handed = s.handed) (ht : t.table = AList.insert s.table a c) : Str t := by
  have hb : r.pc ≠ .queued ∧ ∀ ans, r.pc ≠ .done ans := by rw [hp]; simp
  have hdest : net.parse r.dest = some a := wet_dest (c := c) h hr (.inr (.inl hp))
  intro c' a' b hc
  rw [hst] at hc
  obtain ⟨p, hp'⟩ := hstr c' a' b hc
  by_cases ha : a' = a
  · subst ha
    refine ⟨p, ?_, part_mono (goto_data he) hp'.part, ?_, ?_, ?_⟩
    · rw [handedTo_same hh, contents_mono h (goto_data he)]
      exact hp'.whole
    · intro j q rest hj hq
      obtain ⟨_, rfl⟩ := wet_goto h ho hr hb hdest he hj (.inl ⟨_, hq⟩)
      cases hq
    · intro j q hj hq
      obtain ⟨_, rfl⟩ := wet_goto h ho hr hb hdest he hj (.inr (.inl hq))
      cases hq
    · intro hg
      rw [ht, AList.get?_insert] at hg
      rw [if_pos rfl] at hg
      cases hg
      exact .inl (hp'.fresh i r hr hp)
  · refine ⟨p, strAt_goto h hp' hr ?_ ?_ he (handedTo_same hh c') ?_⟩
    · rw [hp]; rintro (⟨_, h⟩ | h | h) <;> cases h
      exact ha rfl
    · rintro (⟨_, h⟩ | h | h) <;> cases h
    · rw [ht, AList.get?_insert, if_neg ha]
      exact id

theorem str_get {k net} {s t : State A} {i : Nat} {r : Req A} {a : A} {c : Nat} (h : Inv k net s) (hstr : Str s) (ho : One net s)
    (hr : s.reqs[i]? = some r) (hp : r.pc = .get a) (hg : AList.get? s.table a = some c)
    (he : t.reqs = (s.goto i (.write a c (Mtcp.sendBuffer [r.data]))).reqs)
    (hst : t.streams = s.streams) (hh : t.handed = s.handed) (ht : t.table = s.table) : Str t := by
  have hb : r.pc ≠ .queued ∧ ∀ ans, r.pc ≠ .done ans := by rw [hp]; simp
  have hdest : net.parse r.dest = some a := by
    have hok := h.ok i r hr
    unfold Ok at hok
    rw [hp] at hok
    exact hok.2.1
  have hnil : ∀ {c' b p}, StrAt s c' a b p → AList.get? s.table a = some c' → p = [] := fun hp' hg' =>
    idle_nil h ho hr hb hdest (by rw [hp]; rintro (⟨_, h⟩ | h) <;> cases h) hp' hg'
  intro c' a' b hc
  rw [hst] at hc
  obtain ⟨p, hp'⟩ := hstr c' a' b hc
  by_cases ha : a' = a
  · subst ha
    refine ⟨p, ?_, part_mono (goto_data he) hp'.part, ?_, ?_, ?_⟩
    · rw [handedTo_same hh, contents_mono h (goto_data he)]
      exact hp'.whole
    · intro j q rest hj hq
      obtain ⟨_, rfl⟩ := wet_goto h ho hr hb hdest he hj (.inl ⟨_, hq⟩)
      cases hq
      rw [hnil hp' hg, sendBuffer_one]
      exact ⟨rfl, encode_ne_nil _⟩
    · intro j q hj hq
      obtain ⟨_, rfl⟩ := wet_goto h ho hr hb hdest he hj (.inr (.inl hq))
      cases hq
    · intro hg'
      rw [ht] at hg'
      exact .inl (hnil hp' hg')
  · refine ⟨p, strAt_goto h hp' hr ?_ ?_ he (handedTo_same hh c') (by rw [ht]; exact id)⟩
    · rw [hp]; rintro (⟨_, h⟩ | h | h) <;> cases h
    · rintro (⟨_, h⟩ | h | h) <;> cases h
      exact ha rfl

theorem str_fail {k net} {s t : State A} {i : Nat} {r : Req A} {a : A} {c : Nat} {rest : Bytes} (h : Inv k net s) (hstr : Str s)
    (ho : One net s) (hr : s.reqs[i]? = some r) (hp : r.pc = .write a c rest) (he : t.reqs = (s.goto i (.remove a)).reqs)
    (hst : t.streams = s.streams) (hh : t.handed = s.handed) (ht : t.table = s.table) : Str t := by
  have hb : r.pc ≠ .queued ∧ ∀ ans, r.pc ≠ .done ans := by rw [hp]; simp
  have hi' : t.reqs[i]? = some { r with pc := .remove a } := by rw [he]; exact goto_self hr _
  have hdest : net.parse r.dest = some a := wet_dest (c := c) h hr (.inl ⟨_, hp⟩)
  intro c' a' b hc
  rw [hst] at hc
  obtain ⟨p, hp'⟩ := hstr c' a' b hc
  by_cases ha : a' = a
  · subst ha
    refine ⟨p, ?_, part_mono (goto_data he) hp'.part, ?_, ?_, fun _ => .inr ⟨i, _, hi', .inr rfl⟩⟩
    · rw [handedTo_same hh, contents_mono h (goto_data he)]
      exact hp'.whole
    · intro j q rest hj hq
      obtain ⟨_, rfl⟩ := wet_goto h ho hr hb hdest he hj (.inl ⟨_, hq⟩)
      cases hq
    · intro j q hj hq
      obtain ⟨_, rfl⟩ := wet_goto h ho hr hb hdest he hj (.inr (.inl hq))
      cases hq
  · refine ⟨p, strAt_goto h hp' hr ?_ ?_ he (handedTo_same hh c') (by rw [ht]; exact id)⟩
    · rw [hp]; rintro (⟨_, h⟩ | h | h) <;> cases h
      exact ha rfl
    · rintro (⟨_, h⟩ | h | h) <;> cases h
      exact ha rfl

theorem str_remove {k net} {s t : State A} {i : Nat} {r : Req A} {a : A} {ans : Answer} (h : Inv k net s) (hstr : Str s) (ho : One net s)
    (hr : s.reqs[i]? = some r) (hp : r.pc = .remove a) (he : t.reqs = (s.goto i (.done ans)).reqs)
    (hst : t.streams = s.streams) (hh : t.handed = s.handed) (ht : t.table = AList.erase s.table a) : Str t := by
  have hb : r.pc ≠ .queued ∧ ∀ ans, r.pc ≠ .done ans := by rw [hp]; simp
  have hdest : net.parse r.dest = some a := wet_dest (c := 0) h hr (.inr (.inr hp))
  intro c' a' b hc
  rw [hst] at hc
  obtain ⟨p, hp'⟩ := hstr c' a' b hc
  by_cases ha : a' = a
  · subst ha
    refine ⟨p, ?_, part_mono (goto_data he) hp'.part, ?_, ?_, ?_⟩
    · rw [handedTo_same hh, contents_mono h (goto_data he)]
      exact hp'.whole
    · intro j q rest hj hq
      obtain ⟨_, rfl⟩ := wet_goto h ho hr hb hdest he hj (.inl ⟨_, hq⟩)
      cases hq
    · intro j q hj hq
      obtain ⟨_, rfl⟩ := wet_goto h ho hr hb hdest he hj (.inr (.inl hq))
      cases hq
    · intro hg
      rw [ht, AList.get?_erase, if_pos rfl] at hg
      cases hg
  · refine ⟨p, strAt_goto h hp' hr ?_ ?_ he (handedTo_same hh c') ?_⟩
    · rw [hp]; rintro (⟨_, h⟩ | h | h) <;> cases h
      exact ha rfl
    · rintro (⟨_, h⟩ | h | h) <;> cases h
    · rw [ht, AList.get?_erase, if_neg ha]
      exact id

theorem str_written {k net} {s : State A} {i : Nat} {r : Req A} {a : A} {c : Nat} {rest : Bytes} {n : Nat} (h : Inv k net s)
    (hstr : Str s) (ho : One net s) (hr : s.reqs[i]? = some r) (hp : r.pc = .write a c rest) : Str (s.written i c a rest n) := by
  have hb : r.pc ≠ .queued ∧ ∀ ans, r.pc ≠ .done ans := by rw [hp]; simp
  have hok := h.ok i r hr
  unfold Ok at hok
  rw [hp] at hok
  dsimp only at hok
  obtain ⟨_, hdest, _, b0, h4⟩ := hok
  obtain ⟨p, hpc⟩ := hstr c a b0 h4
  obtain ⟨hw1, hw2⟩ := hpc.writer i r rest hr hp
  have hsplit : rest.take n ++ rest.drop n = rest := List.take_append_drop n rest
  have hget : ∀ (c' : Nat) a' b', (s.streams.modify c fun x => (x.1, x.2 ++ rest.take n))[c']? = some (a', b') →
      (c' = c ∧ a' = a ∧ b' = b0 ++ rest.take n) ∨ (c' ≠ c ∧ s.streams[c']? = some (a', b')) := by
    intro c' a' b' hc
    rw [List.getElem?_modify] at hc
    by_cases hcc : c = c'
    · subst hcc
      rw [h4] at hc
      simp at hc
      exact .inl ⟨rfl, hc.1.symm, hc.2.symm⟩
    · refine .inr ⟨fun e => hcc e.symm, ?_⟩
      simpa [hcc] using hc
  have hdry : ∀ {c' a'}, c' ≠ c → ¬ Wet c' a' r.pc := by
    intro c' a' hne
    rw [hp]; rintro (⟨_, h⟩ | h | h) <;> cases h
    exact hne rfl
  unfold State.written State.finish
  dsimp only
  split
  · rename_i hnil
    have htake : rest.take n = rest := by rw [hnil, List.append_nil] at hsplit; exact hsplit
    intro c' a' b' hc
    rcases hget c' a' b' hc with ⟨rfl, rfl, rfl⟩ | ⟨hne, hc⟩
    · refine ⟨[], ?_, .inl rfl, ?_, fun _ _ _ _ => rfl, fun _ => .inl rfl⟩
      · have hhand : handedTo ({ (({ s with streams := s.streams.modify c' fun x => (x.1, x.2 ++ rest.take n) } : State A).goto i
            (.done (.replied .successful))) with handed := s.handed ++ [(i, c')] }) c' = handedTo s c' ++ [i] := by
          unfold handedTo
          simp
        rw [hhand]
        unfold contents
        rw [List.map_append, sendBuffer_eq_append, List.append_nil]
        have h1 := contents_mono (t := s.goto i (.done (.replied .successful))) h (goto_data rfl) c'
        have h2 : (s.goto i (.done (.replied .successful))).reqs[i]? = some { r with pc := .done (.replied .successful) } := goto_self hr _
        unfold contents at h1
        rw [htake, hpc.whole]
        unfold contents
        rw [List.append_assoc, ← hw1]
        refine congr (congrArg HAppend.hAppend (congrArg Mtcp.sendBuffer h1.symm)) ?_
        simp only [List.map_cons, List.map_nil]
        rw [show ({ (({ s with streams := s.streams.modify c' fun x => (x.1, x.2 ++ rest) } : State A).goto i
            (.done (.replied .successful))) with handed := s.handed ++ [(i, c')] } : State A).reqs[i]? =
            some { r with pc := .done (.replied .successful) } from h2]
        rw [sendBuffer_one]
        rfl
      · intro j q rest hj hq
        obtain ⟨_, rfl⟩ := wet_goto h ho hr hb hdest rfl hj (.inl ⟨_, hq⟩)
        cases hq
    · obtain ⟨p', hp'⟩ := hstr c' a' b' hc
      refine ⟨p', strAt_goto h hp' hr (hdry hne) (pc := .done (.replied .successful)) ?_ rfl ?_ id⟩
      · rintro (⟨_, h⟩ | h | h) <;> cases h
      · unfold handedTo
        have : ¬ c = c' := fun e => hne e.symm
        simp [this]
  · rename_i hnil
    have hi' : (s.goto i (.write a c (rest.drop n))).reqs[i]? = some { r with pc := .write a c (rest.drop n) } := goto_self hr _
    have henc : Mtcp.encode r.data = (p ++ rest.take n) ++ rest.drop n := by rw [List.append_assoc, hsplit]; exact hw1
    intro c' a' b' hc
    rcases hget c' a' b' hc with ⟨rfl, rfl, rfl⟩ | ⟨hne, hc⟩
    · have h1 := contents_mono (t := s.goto i (.write a' c' (rest.drop n))) h (goto_data rfl) c'
      refine ⟨p ++ rest.take n, ?_, .inr ⟨i, _, rest.drop n, hi', henc, hnil⟩, ?_, ?_, ?_⟩
      · rw [hpc.whole, List.append_assoc, ← h1]
        rfl
      · intro j q rest' hj hq
        obtain ⟨_, rfl⟩ := wet_goto h ho hr hb hdest rfl hj (.inl ⟨_, hq⟩)
        cases hq
        exact ⟨henc, hnil⟩
      · intro j q hj hq
        obtain ⟨_, rfl⟩ := wet_goto h ho hr hb hdest rfl hj (.inr (.inl hq))
        cases hq
      · intro _
        exact .inr ⟨i, _, hi', .inl ⟨_, rfl⟩⟩
    · obtain ⟨p', hp'⟩ := hstr c' a' b' hc
      refine ⟨p', strAt_goto h hp' hr (hdry hne) (pc := .write a c (rest.drop n)) ?_ rfl rfl id⟩
      rintro (⟨_, h⟩ | h | h) <;> cases h
      exact hne rfl

theorem str_go {k net} {s t : State A} {i : Nat} {r : Req A} {ch} (h : Inv k net s) (hstr : Str s) (ho : One net s)
    (hr : s.reqs[i]? = some r) (hs : s.go net i r ch = some t) : Str t := by
  have dry : ∀ {pc pc' : Pc A} {t : State A}, r.pc = pc → Dry pc → Dry pc' → t.reqs = (s.goto i pc').reqs → t.streams = s.streams →
      t.handed = s.handed → t.table = s.table → Str t := by
    intro pc pc' t h1 h2 h3 h4 h5 h6 h7
    exact str_goto h hstr hr (by rw [h1]; exact h2) h3 h4 h5 h6 h7
  unfold State.go State.finish at hs
  split at hs <;> (try (cases hs; done)) <;> rename_i hp
  · cases hs
    split
    · exact dry hp (by simp [Dry, Wet]) (by simp [Dry, Wet]) rfl rfl rfl rfl
    · exact dry hp (by simp [Dry, Wet]) (by simp [Dry, Wet]) rfl rfl rfl rfl
  · cases hs
    exact str_connect h hstr hr hp rfl rfl rfl rfl
  · cases hs; exact dry hp (by simp [Dry, Wet]) (by simp [Dry, Wet]) rfl rfl rfl rfl
  · cases hs
    exact str_insert h hstr ho hr hp rfl rfl rfl rfl
  · split at hs
    · cases hs; exact dry hp (by simp [Dry, Wet]) (by simp [Dry, Wet]) rfl rfl rfl rfl
    · rename_i c hc
      cases hs
      exact str_get h hstr ho hr hp hc rfl rfl rfl rfl
  · cases hs; exact dry hp (by simp [Dry, Wet]) (by simp [Dry, Wet]) rfl rfl rfl rfl
  · split at hs
    · cases hs
      exact str_written h hstr ho hr hp
    · cases hs
  · cases hs
    exact str_fail h hstr ho hr hp rfl rfl rfl rfl
  · cases hs
    exact str_remove h hstr ho hr hp rfl rfl rfl rfl
  · cases hs; exact dry hp (by simp [Dry, Wet]) (by simp [Dry, Wet]) rfl rfl rfl rfl
  · cases hs; exact dry hp (by simp [Dry, Wet]) (by simp [Dry, Wet]) rfl rfl rfl rfl
  · split at hs
    · cases hs; exact dry hp (by simp [Dry, Wet]) (by simp [Dry, Wet]) rfl rfl rfl rfl
    · cases hs
  · cases hs; exact dry hp (by simp [Dry, Wet]) (by simp [Dry, Wet]) rfl rfl rfl rfl
  · split at hs
    · cases hs; exact dry hp (by simp [Dry, Wet]) (by simp [Dry, Wet]) rfl rfl rfl rfl
    · cases hs; exact dry hp (by simp [Dry, Wet]) (by simp [Dry, Wet]) rfl rfl rfl rfl
  · cases hs; exact dry hp (by simp [Dry, Wet]) (by simp [Dry, Wet]) rfl rfl rfl rfl
  · split at hs
    · cases hs; exact dry hp (by simp [Dry, Wet]) (by simp [Dry, Wet]) rfl rfl rfl rfl
    · split at hs
      · cases hs; exact dry hp (by simp [Dry, Wet]) (by simp [Dry, Wet]) rfl rfl rfl rfl
      · split at hs
        · cases hs; exact dry hp (by simp [Dry, Wet]) (by simp [Dry, Wet]) rfl rfl rfl rfl
        · cases hs; exact dry hp (by simp [Dry, Wet]) (by simp [Dry, Wet]) rfl rfl rfl rfl
  · cases hs; exact dry hp (by simp [Dry, Wet]) (by simp [Dry, Wet]) rfl rfl rfl rfl
  · cases hs; exact dry hp (by simp [Dry, Wet]) (by simp [Dry, Wet]) rfl rfl rfl rfl
  · cases hs; exact dry hp (by simp [Dry, Wet]) (by simp [Dry, Wet]) rfl rfl rfl rfl
  · cases hs; exact dry hp (by simp [Dry, Wet]) (by simp [Dry, Wet]) rfl rfl rfl rfl

/-- A step after which the same transfers touch streams, and nothing else changes. -/
theorem str_same {k net} {s t : State A} (h : Inv k net s) (hstr : Str s)
    (hl : ∀ (j : Nat) (q : Req A), s.reqs[j]? = some q → ∃ p, t.reqs[j]? = some p ∧ p.data = q.data)
    (hw : ∀ (j : Nat) (q : Req A), t.reqs[j]? = some q → ∀ c a, Wet c a q.pc → s.reqs[j]? = some q)
    (hw' : ∀ (j : Nat) (q : Req A), s.reqs[j]? = some q → ∀ c a, Wet c a q.pc → t.reqs[j]? = some q)
    (hst : t.streams = s.streams) (hh : t.handed = s.handed) (ht : t.table = s.table) : Str t := by
  intro c a b hc
  rw [hst] at hc
  obtain ⟨p, hp⟩ := hstr c a b hc
  exact ⟨p, strAt_same h hp hl (fun j q hj => hw j q hj c a) (fun j q hj => hw' j q hj c a) (handedTo_same hh c) (by rw [ht]; exact id)⟩

theorem str_die {k net} {s : State A} (h : Inv k net s) (hstr : Str s) : Str s.die := by
  have hdrop : ∀ (j : Nat) (q : Req A), s.reqs[j]? = some q → s.die.reqs[j]? = some q.drop := by
    intro j q hj
    rw [die_get, hj]; rfl
  refine str_same h hstr ?_ ?_ ?_ rfl rfl rfl
  · intro j q hj
    exact ⟨q.drop, hdrop j q hj, (drop_later q).data⟩
  · intro j q hj c a hd
    rw [die_get] at hj
    cases hs : s.reqs[j]? with
    | none => rw [hs] at hj; cases hj
    | some p =>
      rw [hs] at hj
      cases hj
      unfold Req.drop at hd ⊢
      split at hd
      · simp [Wet] at hd
      · rename_i hq
        rw [if_neg hq]
  · intro j q hj c a hd
    rw [hdrop j q hj]
    unfold Req.drop
    rw [if_neg (wet_busy hd).1]

theorem str_step {k net} {s t : State A} {e} (h : Inv k net s) (hstr : Str s) (ho : One net s) (hs : step k net s e = some t) : Str t := by
  cases e with
  | go i ch =>
    simp only [step] at hs
    split at hs
    · cases hs
    · rename_i r hr
      exact str_go h hstr ho hr hs
  | shutdown =>
    simp only [step] at hs
    split at hs
    · cases hs
      exact str_same h hstr (fun j q hj => ⟨q, hj, rfl⟩) (fun _ _ h _ _ _ => h) (fun _ _ h _ _ _ => h) rfl rfl rfl
    · cases hs
  | request dest data =>
    have hl := later_data h hs
    have hnew : ∀ (pc : Pc A), Dry pc → ∀ (j : Nat) (q : Req A), (s.reqs ++ [{ dest, data, pc }])[j]? = some q →
        ∀ c a, Wet c a q.pc → s.reqs[j]? = some q := by
      intro pc hpc j q hj c a hd
      by_cases hlt : j < s.reqs.length
      · rw [List.getElem?_append_left hlt] at hj
        exact hj
      · rw [List.getElem?_append_right (by omega)] at hj
        have := List.mem_of_getElem? hj
        rw [List.mem_singleton] at this
        subst this
        exact absurd hd (hpc c a)
    have hold : ∀ x (j : Nat) (q : Req A), s.reqs[j]? = some q → ∀ c a, Wet c a q.pc → (s.reqs ++ [x])[j]? = some q := by
      intro x j q hj _ _ _
      rw [List.getElem?_append_left (List.getElem?_eq_some_iff.mp hj).1]
      exact hj
    simp only [step] at hs
    split at hs
    · cases hs
      exact str_same h hstr hl (hnew _ (by simp [Dry, Wet])) (hold _) rfl rfl rfl
    · split at hs
      · cases hs
        exact str_same h hstr hl (hnew _ (by simp [Dry, Wet])) (hold _) rfl rfl rfl
      · cases hs
  | take =>
    simp only [step] at hs
    unfold State.take at hs
    split at hs
    · cases hs
    · split at hs
      · cases hs
      · cases hs
        exact str_die h hstr
      · rename_i i q hq
        obtain ⟨r, hr, hp⟩ := h.queued i (by rw [hq]; simp)
        rw [hr] at hs
        cases hs
        have hd : Dry r.pc := by rw [hp]; simp [Dry, Wet]
        have dry : ∀ {pc : Pc A}, Dry pc → Str (({ s with queue := q } : State A).goto i pc) := by
          intro pc h3
          exact str_goto h hstr hr hd h3 rfl rfl rfl rfl
        have hdie : Str ({ s with queue := q } : State A).die := (str_die h hstr : Str s.die)
        unfold State.handle State.finish
        split
        · exact dry (by simp [Dry, Wet])
        · exact dry (by simp [Dry, Wet])
        · exact dry (by simp [Dry, Wet])
        · exact dry (by simp [Dry, Wet])
        · exact dry (by simp [Dry, Wet])
        · split
          · exact dry (by simp [Dry, Wet])
          · split
            · exact hdie
            · exact dry (by simp [Dry, Wet])
        · split
          · exact dry (by simp [Dry, Wet])
          · split
            · exact hdie
            · exact dry (by simp [Dry, Wet])

theorem str_run {k net} {s t : State A} {evs} (h : Inv k net s) (hstr : Str s)
    (ho : ∀ pre u, pre <+: evs → run k net s pre = some u → One net u) (hr : run k net s evs = some t) : Str t := by
  induction evs generalizing s with
  | nil => cases hr; exact hstr
  | cons e evs ih =>
    unfold run at hr
    cases hs : step k net s e with
    | none => rw [hs] at hr; cases hr
    | some u =>
      rw [hs] at hr
      refine ih (inv_step h hs) (str_step h hstr (ho [] s (List.nil_prefix) rfl) hs) ?_ hr
      intro pre v hp hv
      refine ho (e :: pre) v ?_ (by unfold run; rw [hs]; exact hv)
      obtain ⟨suf, rfl⟩ := hp
      exact ⟨suf, rfl⟩

theorem str_after {k net} {evs : List Ev} {s : State A} (ho : OneByOne k net evs) (h : After k net evs s) : Str s :=
  str_run (inv_start k net) (by intro c a b h; cases h) (fun pre u hp hu => ho pre u hp hu) h

end Dtn.Clas
