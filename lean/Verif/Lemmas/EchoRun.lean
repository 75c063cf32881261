import Verif.Lemmas.EchoPing

namespace Dtn.EchoPing
open Ws Spec.WsSpec Spec.EchoSpec

variable {x : Ext} {host : EID} {store : MemStore} {io : Io} {dtn : Bool} {reg : Prop} {ep : EID}

/-- The answer to `/data`. -/
def modeMsg : Msg := .text "200 tx mode: data"

/-- The program has not subscribed yet. -/
structure Before (x : Ext) (host : EID) (store : MemStore) (sys : System) : Prop where
  sub : ∀ e, subscribed x host sys.conn e sys.evs.reverse = false
  hand : handedTo (hub x host store sys.evs) sys.conn = []

/-- How far the program has come. -/
inductive Stage (x : Ext) (host : EID) (store : MemStore) (dtn : Bool) (reg : Prop) (ep : EID) (sys : System) (s : Session) : Prop where
  | asked (p : sys.phase = .mode) (u : sys.up = [.text "/data"]) (g : sys.got = 0) (o : s.out = [])
      (n : Before x host store sys)
  | moded (p : sys.phase = .mode) (u : sys.up = []) (g : sys.got = 0)
      (o : (s.alive = false ∧ s.out = []) ∨ (s.mode = .data .cbor ∧ s.out = [modeMsg]))
      (n : Before x host store sys)
  | asking (p : sys.phase = .subscribe) (u : sys.up = [.text ("/subscribe " ++ service dtn)]) (g : sys.got = 1)
      (m : s.mode = .data .cbor) (o : s.out = [modeMsg])
      (n : Before x host store sys)
  | lost (p : sys.phase = .subscribe) (u : sys.up = []) (g : sys.got = 1) (a : s.alive = false) (m : s.mode = .data .cbor) (o : s.out = [modeMsg])
  | done (m : s.mode = .data .cbor) (t : String) (rest : List Msg) (o : s.out = modeMsg :: .text t :: rest)
      (p : (sys.phase = .subscribe ∧ sys.got = 1 ∧ sys.up = []) ∨ (sys.phase = .serving ∧ 2 ≤ sys.got ∧ ∀ u ∈ sys.up, ∃ b, u = .binary b) ∨
        (sys.phase = .ended ∧ 2 ≤ sys.got ∧ sys.up = [] ∧ startsWith t "200 subscribed" = false))
      (r : reg → t = "200 subscribed" ∧ (connected sys.conn sys.evs.reverse = true → subscribed x host sys.conn ep sys.evs.reverse = true))

/-- The bundles told of by the messages read. -/
def readSo (x : Ext) (sys : System) (s : Session) : List Bundle := (told x s).take (bins (s.out.take sys.got)).length

structure Inv (x : Ext) (host : EID) (store : MemStore) (io : Io) (dtn : Bool) (reg : Prop) (ep : EID) (sys : System) (s : Session)
    (W : List Bytes) (k : Nat) : Prop where
  sess : (hub x host store sys.evs).sessions[sys.conn]? = some s
  outs : bins s.out = (told x s).map (x.encode .cbor)
  sent : W ++ upBins sys.up = (readSo x sys s).map fun b => io.send (flipped b)
  le : k ≤ W.length
  all : s.alive = true → k = W.length
  gave : given x host sys.conn (Ws.init store) sys.evs = ((told x s).take k).map (answer x)
  gots : sys.got ≤ s.out.length
  stage : Stage x host store dtn reg ep sys s

theorem hub_snoc (evs : List Ev) (ev : Ev) : hub x host store (evs ++ [ev]) = step x host (hub x host store evs) ev := Ws.run_snoc _ _ _ _ _

theorem given_snoc (i : Nat) (h : Hub) (evs : List Ev) (ev : Ev) :
    given x host i h (evs ++ [ev]) = given x host i h evs ++ given x host i (Ws.run x host h evs) [ev] := by
  induction evs generalizing h with
  | nil => simp [given, Ws.run]
  | cons e evs ih => simp only [List.cons_append, given, ih, Ws.run, List.foldl_cons, List.append_assoc]

theorem given_foreign (i : Nat) (h : Hub) (ev : Ev) (hf : from' i ev = false) : given x host i h [ev] = [] := by
  cases ev <;> simp_all [given, from']

theorem given_text (i j : Nat) (t : String) (h : Hub) : given x host i h [.text j t] = [] := rfl

theorem told_books (evs : List Ev) {i : Nat} {s : Session} (hs : (hub x host store evs).sessions[i]? = some s) :
    s.handled.map (·.2) <+: handedTo (hub x host store evs) i := by
  have b := (Books.run x host store evs).sess i s hs
  cases ha : s.alive with
  | true => exact ⟨_, (b.live ha).symm⟩
  | false => obtain ⟨-, l, hl⟩ := b.dead ha; exact ⟨l, hl.symm⟩

/-- Nobody is handed anything without a subscription. -/
theorem handed_none {evs : List Ev} {ev : Ev} {i : Nat} (hn : ∀ e, subscribed x host i e evs.reverse = false) :
    handedTo (hub x host store (evs ++ [ev])) i = handedTo (hub x host store evs) i := by
  by_contra h
  obtain ⟨e, b, -, h2, -⟩ := Props.C59_only_subscribed x host store evs ev i h
  rw [hn e] at h2; cases h2

theorem handed_mono (evs : List Ev) (ev : Ev) (i : Nat) :
    handedTo (hub x host store evs) i <+: handedTo (hub x host store (evs ++ [ev])) i := by
  by_cases h : handedTo (hub x host store (evs ++ [ev])) i = handedTo (hub x host store evs) i
  · rw [h]; exact List.prefix_refl _
  · obtain ⟨e, b, -, -, -, h3⟩ := Props.C59_only_subscribed x host store evs ev i h
    exact ⟨[b], h3.symm⟩

theorem subscribed_foreign {i : Nat} {e : EID} {ev : Ev} {older : List Ev} (hf : from' i ev = false) :
    subscribed x host i e (ev :: older) = if ev = .ended i then false else subscribed x host i e older := by
  cases ev <;> simp_all [subscribed, from']

theorem connected_foreign {i : Nat} {ev : Ev} {older : List Ev} (h : connected i (ev :: older) = true) (hl : i < opened older) :
    connected i older = true := by
  cases ev with
  | connect =>
    simp only [connected] at h
    rw [if_neg (by omega)] at h; exact h
  | ended j =>
    simp only [connected] at h
    split at h
    · cases h
    · exact h
  | _ => exact h

theorem sess_lt {evs : List Ev} {i : Nat} {s : Session} (hs : (hub x host store evs).sessions[i]? = some s) : i < opened evs.reverse := by
  have := (Track.run x host store evs).len
  rw [← this]
  have := (List.getElem?_eq_some_iff.mp hs).1
  simpa [V, hub] using this

theorem alive_connected {evs : List Ev} {i : Nat} {s : Session} (hs : (hub x host store evs).sessions[i]? = some s) :
    s.alive = connected i evs.reverse := ((Track.run x host store evs).sess i _ (V_get hs)).1

theorem take_prefix {α : Type} {a b : List α} {n : Nat} (h : a <+: b) (hn : n ≤ a.length) : b.take n = a.take n := by
  obtain ⟨c, rfl⟩ := h
  rw [List.take_append_of_le_length hn]

/-- Reading further than `got` does not change what was read. -/
theorem readSo_grow {sys sys' : System} {s s' : Session} (hg : sys'.got = sys.got) (hl : sys.got ≤ s.out.length)
    (ho : s.out <+: s'.out) (hh : told x s <+: told x s') (hb : bins s.out = (told x s).map (x.encode .cbor)) :
    readSo x sys' s' = readSo x sys s := by
  unfold readSo
  rw [hg]
  have h1 : s'.out.take sys.got = s.out.take sys.got := take_prefix ho hl
  rw [h1]
  refine take_prefix hh ?_
  have : (bins s.out).length = (told x s).length := by rw [hb]; simp
  rw [← this]
  conv => rhs; rw [← List.take_append_drop sys.got s.out, bins_append]
  simp

theorem readSo_length {sys : System} {s : Session} (hb : bins s.out = (told x s).map (x.encode .cbor)) :
    (readSo x sys s).length = (bins (s.out.take sys.got)).length := by
  unfold readSo
  rw [List.length_take]
  refine Nat.min_eq_left ?_
  have : (bins s.out).length = (told x s).length := by rw [hb]; simp
  rw [← this]
  conv => rhs; rw [← List.take_append_drop sys.got s.out, bins_append]
  simp

theorem Inv.W_le {sys : System} {s : Session} {W k} (v : Inv x host store io dtn reg ep sys s W k) : k ≤ (told x s).length := by
  have h := congrArg List.length v.sent
  simp only [List.length_append, List.length_map] at h
  have : (readSo x sys s).length ≤ (told x s).length := by unfold readSo; rw [List.length_take]; exact Nat.min_le_right _ _
  have := v.le
  omega

theorem Before.foreign {sys : System} {ev : Ev} (n : Before x host store sys) (hf : from' sys.conn ev = false) :
    Before x host store { sys with evs := sys.evs ++ [ev] } := by
  refine ⟨fun e => ?_, ?_⟩
  · simp only [List.reverse_append, List.reverse_cons, List.reverse_nil, List.nil_append, List.singleton_append]
    rw [subscribed_foreign hf, n.sub e]; simp
  · exact (handed_none n.sub).trans n.hand

theorem Before.handled {sys : System} {s : Session} (n : Before x host store sys) (hs : (hub x host store sys.evs).sessions[sys.conn]? = some s) :
    s.handled = [] := by
  have := told_books sys.evs hs
  rw [n.hand] at this
  simpa using this

theorem told_cons {s s' : Session} {m : Mode} {b : Bundle} (h : s'.handled = s.handled ++ [(m, b)]) :
    told x s' = told x s ++ if x.hasPayload b = true then [b] else [] := by
  unfold told
  rw [h]
  simp only [List.map_append, List.filter_append, List.map_cons, List.map_nil]
  by_cases hb : x.hasPayload b = true <;> simp [hb]

theorem bins_present (b : Bundle) : bins (present x (.data .cbor) b) = (if x.hasPayload b = true then [b] else []).map (x.encode .cbor) := by
  unfold present
  by_cases hb : x.hasPayload b = true <;> simp [hb, bins]

/-- What changes nothing of the program. -/
theorem Inv.grow {sys : System} {s s' : Session} {W k} {ev : Ev} (v : Inv x host store io dtn reg ep sys s W k)
    (hs' : (hub x host store (sys.evs ++ [ev])).sessions[sys.conn]? = some s') (f : Foreign x s s')
    (hm : ∀ b, s.alive = true → s'.handled = s.handled ++ [(s.mode, b)] → s.mode = .data .cbor)
    (hg : given x host sys.conn (hub x host store sys.evs) [ev] = [])
    (st : Stage x host store dtn reg ep { sys with evs := sys.evs ++ [ev] } s') :
    Inv x host store io dtn reg ep { sys with evs := sys.evs ++ [ev] } s' W k := by
  have ho : s.out <+: s'.out := by
    rcases f.work with ⟨h, -⟩ | ⟨b, -, h, -⟩ <;> rw [h]
    · exact List.prefix_refl _
    · exact List.prefix_append _ _
  have hh : told x s <+: told x s' := by
    rcases f.work with ⟨-, h⟩ | ⟨b, -, -, h⟩
    · unfold told; rw [h]; exact List.prefix_refl _
    · rw [told_cons h]; exact List.prefix_append _ _
  refine ⟨hs', ?_, ?_, v.le, fun a => v.all (f.alive a), ?_, ?_, st⟩
  · rcases f.work with ⟨h1, h2⟩ | ⟨b, h0, h1, h2⟩
    · have : told x s' = told x s := by unfold told; rw [h2]
      rw [h1, this]; exact v.outs
    · rw [h1, told_cons h2, bins_append, v.outs, hm b h0 h2, bins_present, List.map_append]
  · change W ++ upBins sys.up = _
    rw [v.sent, readSo_grow (sys := sys) (sys' := { sys with evs := sys.evs ++ [ev] }) rfl v.gots ho hh v.outs]
  · change given x host sys.conn (Ws.init store) (sys.evs ++ [ev]) = _
    rw [given_snoc, v.gave, take_prefix hh v.W_le]
    change _ ++ given x host sys.conn (hub x host store sys.evs) [ev] = _
    rw [hg, List.append_nil]
  · exact Nat.le_trans v.gots ho.length_le

theorem Inv.other {sys : System} {s : Session} {W k} {ev : Ev} (v : Inv x host store io dtn reg ep sys s W k)
    (hf : from' sys.conn ev = false) : ∃ s', Inv x host store io dtn reg ep { sys with evs := sys.evs ++ [ev] } s' W k := by
  obtain ⟨s', hs', f⟩ := foreign (x := x) (host := host) v.sess hf
  rw [← hub_snoc] at hs'
  have hgi := given_foreign (x := x) (host := host) sys.conn (hub x host store sys.evs) ev hf
  -- before the subscription nothing is handled
  have quiet : Before x host store sys → s'.out = s.out ∧ s'.handled = s.handled := by
    intro n
    rcases f.work with h | ⟨b, -, -, h⟩
    · exact h
    · have n' := (n.foreign hf).handled (s := s') hs'
      rw [n'] at h; simp at h
  have nomode : Before x host store sys → ∀ b, s.alive = true → s'.handled = s.handled ++ [(s.mode, b)] → s.mode = .data .cbor := by
    intro n b _ h
    rw [(n.foreign hf).handled (s := s') hs'] at h; simp at h
  refine ⟨s', ?_⟩
  cases v.stage with
  | asked p u g o n => exact v.grow hs' f (nomode n) hgi (.asked p u g ((quiet n).1.trans o) (n.foreign hf))
  | moded p u g o n =>
    refine v.grow hs' f (nomode n) hgi (.moded p u g ?_ (n.foreign hf))
    rw [(quiet n).1, f.mode]
    rcases o with ⟨h1, h2⟩ | h
    · refine .inl ⟨?_, h2⟩
      by_contra h; exact absurd (f.alive (by simpa using h)) (by rw [h1]; simp)
    · exact .inr h
  | asking p u g m o n => exact v.grow hs' f (nomode n) hgi (.asking p u g (f.mode.trans m) ((quiet n).1.trans o) (n.foreign hf))
  | lost p u g a m o =>
    refine v.grow hs' f (fun _ _ _ => m) hgi (.lost p u g ?_ (f.mode.trans m) ?_)
    · by_contra h; exact absurd (f.alive (by simpa using h)) (by rw [a]; simp)
    · rcases f.work with ⟨h, -⟩ | ⟨b, h, -⟩
      · exact h.trans o
      · rw [a] at h; cases h
  | done m t rest o p r =>
    have : ∃ rest', s'.out = modeMsg :: .text t :: rest' := by
      rcases f.work with ⟨h, -⟩ | ⟨b, -, h, -⟩
      · exact ⟨rest, h.trans o⟩
      · exact ⟨rest ++ present x s.mode b, by rw [h, o]; rfl⟩
    obtain ⟨rest', o'⟩ := this
    refine v.grow hs' f (fun _ _ _ => m) hgi (.done (f.mode.trans m) t rest' o' p fun hr => ⟨(r hr).1, fun hc => ?_⟩)
    simp only [List.reverse_append, List.reverse_cons, List.reverse_nil, List.nil_append, List.singleton_append] at hc ⊢
    rw [subscribed_foreign hf]
    rw [if_neg (by rintro rfl; simp [connected] at hc)]
    exact (r hr).2 (connected_foreign hc (sess_lt v.sess))

end Dtn.EchoPing
