import Verif.Lemmas.Bridge
import Verif.Props.Mtcp
import Verif.Props.EclaFrames
/-! The receiving half of the programs that carry bundles over TCP, and what can be read from what was written. -/

namespace Dtn.Bridge
open Spec.BridgeSpec
open ModuleClient (EclaPacket)

variable {g : Prog} {s t : State}

/-- The packet made of a frame. -/
def passOf (g : Prog) (addr : String) (f : Bytes) : Option EclaPacket :=
  match g.item addr f with
  | .pass p => some p
  | _ => none

/-- Reading more does not change the frames read before. -/
def Grows (g : Prog) : Prop := ∀ cs b, (g.frames cs).1 <+: (g.frames (cs ++ [b])).1

theorem Mtcp_drain_grows (k : Nat) : ∀ r : Mtcp.Rx, r.frames <+: (Mtcp.drain k r).frames := by
  induction k with
  | zero => intro r; exact List.prefix_rfl
  | succ k ih =>
    intro r
    unfold Mtcp.drain
    split
    · exact List.prefix_rfl
    · split
      · exact List.prefix_rfl
      · rename_i d rest _
        exact (List.prefix_append _ _).trans (ih { r with buf := rest, frames := r.frames ++ [d] })
      · exact List.prefix_rfl
      · exact List.prefix_rfl

theorem EclaFrames_drain_grows (k : Nat) : ∀ r : EclaFrames.Rx, r.packets <+: (EclaFrames.drain k r).packets := by
  induction k with
  | zero => intro r; exact List.prefix_rfl
  | succ k ih =>
    intro r
    unfold EclaFrames.drain
    split
    · exact List.prefix_rfl
    · rename_i d rest _
      exact (List.prefix_append _ _).trans (ih { r with buf := rest, packets := r.packets ++ [d] })
    · exact List.prefix_rfl

theorem mtcp_grows (x : Codec) : Grows (mtcp x) := by
  intro cs b
  change (Mtcp.receive cs).frames <+: (Mtcp.receive (cs ++ [b])).frames
  simp only [Mtcp.receive, List.foldl_append, List.foldl_cons, List.foldl_nil]
  generalize cs.foldl Mtcp.feed {} = r
  unfold Mtcp.feed
  split
  · exact List.prefix_rfl
  · exact Mtcp_drain_grows _ { r with buf := r.buf ++ b }

theorem json_grows (x : Codec) : Grows (jsonMtcp x) := by
  intro cs b
  change (EclaFrames.receive cs).packets <+: (EclaFrames.receive (cs ++ [b])).packets
  simp only [EclaFrames.receive, List.foldl_append, List.foldl_cons, List.foldl_nil]
  generalize cs.foldl EclaFrames.feed {} = r
  unfold EclaFrames.feed
  split
  · exact List.prefix_rfl
  · exact EclaFrames_drain_grows _ { r with buf := r.buf ++ b }

/-- An incoming connection and the packets made of it. -/
structure ConnInv (g : Prog) (c : Incoming) (l : List EclaPacket) : Prop where
  used : c.used ≤ (g.frames c.chunks).1.length
  packets : l = ((g.frames c.chunks).1.take c.used).filterMap (passOf g c.addr)
  nostop : ∀ f ∈ (g.frames c.chunks).1.take c.used, g.item c.addr f ≠ .stop
  done : c.done = true → c.used = (g.frames c.chunks).1.length ∨ ∃ f, (g.frames c.chunks).1[c.used]? = some f ∧ g.item c.addr f = .stop

/-- The receiving half. -/
structure InInv (g : Prog) (s : State) : Prop where
  conn : ∀ (i : Nat) c, s.ins[i]? = some c → ConnInv g c (offeredFrom s i)
  known : ∀ o ∈ s.offered, o.1 < s.ins.length
  channel : (s.offered.filter fun o => o.2.2).map (fun o => o.2.1) = s.given ++ s.ctx
  waits : g.waits = true → ∀ o ∈ s.offered, o.2.2 = true

theorem InInv.init : InInv g {} := by
  constructor <;> simp

theorem offeredFrom_append (s t : State) (j : Nat) (p : EclaPacket) (b : Bool) (h : t.offered = s.offered ++ [(j, p, b)]) (i : Nat) :
    offeredFrom t i = offeredFrom s i ++ if j = i then [p] else [] := by
  simp only [offeredFrom, h, List.filter_append, List.map_append]
  by_cases hj : j = i <;> simp [hj]

theorem offeredFrom_nil (h : InInv g s) {i : Nat} (hi : s.ins.length ≤ i) : offeredFrom s i = [] := by
  simp only [offeredFrom, List.map_eq_nil_iff, List.filter_eq_nil_iff, decide_eq_true_eq]
  intro o ho hoi
  have := h.known o ho
  omega

/-- Nothing about the receiving half has changed, except perhaps that a packet was taken. -/
theorem InInv.congr (h : InInv g s) (h1 : t.ins = s.ins) (h2 : t.offered = s.offered) (h3 : t.given ++ t.ctx = s.given ++ s.ctx) : InInv g t := by
  have ho : ∀ i, offeredFrom t i = offeredFrom s i := fun i => by simp [offeredFrom, h2]
  constructor
  · intro i c hc; rw [h1] at hc; rw [ho]; exact h.conn i c hc
  · rw [h1, h2]; exact h.known
  · rw [h2, h3]; exact h.channel
  · rw [h2]; exact h.waits

/-- One incoming connection has changed and nothing was offered. -/
theorem InInv.set (h : InInv g s) {i : Nat} {c c' : Incoming} (hc : s.ins[i]? = some c) (h1 : t.ins = s.ins.set i c') (h2 : t.offered = s.offered)
    (h3 : t.ctx = s.ctx) (h4 : t.given = s.given) (hn : ConnInv g c (offeredFrom s i) → ConnInv g c' (offeredFrom s i)) : InInv g t := by
  have hlt := (List.getElem?_eq_some_iff.1 hc).1
  have ho : ∀ i, offeredFrom t i = offeredFrom s i := fun i => by simp [offeredFrom, h2]
  constructor
  · intro j d hd
    rw [ho]
    by_cases hj : i = j
    · subst hj
      rw [h1, List.getElem?_set_self hlt] at hd
      cases hd
      exact hn (h.conn i c hc)
    · rw [h1, List.getElem?_set_ne hj] at hd
      exact h.conn j d hd
  · rw [h1, h2]; simpa using h.known
  · rw [h2, h3, h4]; exact h.channel
  · rw [h2]; exact h.waits

theorem ConnInv.next {c : Incoming} {l : List EclaPacket} (h : ConnInv g c l) (hd : c.done = false) {f : Bytes} (hf : (g.frames c.chunks).1[c.used]? = some f)
    (hi : g.item c.addr f ≠ .stop) : ConnInv g { c with used := c.used + 1 } (l ++ (passOf g c.addr f).toList) := by
  have hlt := (List.getElem?_eq_some_iff.1 hf).1
  constructor
  · exact hlt
  · change _ = ((g.frames c.chunks).1.take (c.used + 1)).filterMap _
    rw [List.take_add_one, hf, List.filterMap_append, ← h.packets]
    cases hp : passOf g c.addr f <;> simp [hp]
  · intro f' hf'
    change f' ∈ (g.frames c.chunks).1.take (c.used + 1) at hf'
    rw [List.take_add_one, hf, List.mem_append] at hf'
    rcases hf' with hf' | hf'
    · exact h.nostop f' hf'
    · simp only [Option.toList_some, List.mem_singleton] at hf'
      subst hf'
      exact hi
  · intro h; rw [hd] at h; cases h

theorem InInv.step (hg : Grows g) (h : InInv g s) {e : Ev} (hs : s.step g e = some t) : InInv g t := by
  cases e with
  | packet p =>
    simp only [State.step] at hs
    split at hs
    · cases hs
    split at hs
    · simp only [Option.some.injEq] at hs; subst hs
      exact h.congr rfl rfl rfl
    · cases hs
  | pick ok =>
    simp only [State.step] at hs
    split at hs
    · cases hs
    split at hs
    · split at hs
      · simp only [Option.some.injEq] at hs; subst hs
        exact h.congr rfl rfl rfl
      · split at hs
        · simp only [Option.some.injEq] at hs; subst hs
          exact h.congr rfl rfl rfl
        · split at hs
          · simp only [Option.some.injEq] at hs; subst hs
            exact h.congr rfl rfl rfl
          · simp only [Option.some.injEq] at hs; subst hs
            exact h.congr rfl rfl rfl
    · cases hs
  | write r =>
    simp only [State.step] at hs
    split at hs
    · cases hs
    split at hs
    · cases hs
    split at hs
    · simp only [Option.some.injEq] at hs; subst hs
      exact h.congr rfl rfl rfl
    split at hs
    · cases hs
    split at hs
    · simp only [Option.some.injEq] at hs; subst hs
      exact h.congr rfl rfl rfl
    · split at hs
      · simp only [Option.some.injEq] at hs; subst hs
        exact h.congr rfl rfl rfl
      · cases hs
  | accept addr =>
    simp only [State.step] at hs
    split at hs
    · cases hs
    simp only [Option.some.injEq] at hs; subst hs
    constructor
    · intro i c hc
      simp only [List.getElem?_append] at hc
      split at hc
      · exact h.conn i c hc
      · have hz : i = s.ins.length := by
          have := (List.getElem?_eq_some_iff.1 hc).1
          simp only [List.length_singleton] at this
          omega
        subst hz
        simp only [Nat.sub_self, List.getElem?_cons_zero, Option.some.injEq] at hc
        subst hc
        have : offeredFrom { s with ins := s.ins ++ [{ addr }] } s.ins.length = [] := offeredFrom_nil h (Nat.le_refl _)
        rw [this]
        exact ⟨Nat.zero_le _, by simp, by simp, by simp⟩
    · intro o ho
      have := h.known o ho
      simp only [List.length_append, List.length_singleton]
      omega
    · exact h.channel
    · exact h.waits
  | chunk i bytes =>
    simp only [State.step] at hs
    split at hs
    · cases hs
    split at hs
    · rename_i c hc
      split at hs
      · rename_i hcd
        simp only [Option.some.injEq] at hs; subst hs
        refine h.set hc rfl rfl rfl rfl fun hn => ?_
        have hp := hg c.chunks bytes
        refine ⟨Nat.le_trans hn.used hp.length_le, ?_, ?_, fun hd => ?_⟩
        · obtain ⟨r, hr⟩ := hp
          change _ = ((g.frames (c.chunks ++ [bytes])).1.take c.used).filterMap _
          rw [← hr, List.take_append_of_le_length hn.used]
          exact hn.packets
        · obtain ⟨r, hr⟩ := hp
          change ∀ f ∈ (g.frames (c.chunks ++ [bytes])).1.take c.used, _
          rw [← hr, List.take_append_of_le_length hn.used]
          exact hn.nostop
        · change c.done = true at hd
          rw [hcd.2] at hd; cases hd
      · cases hs
    · cases hs
  | close i =>
    simp only [State.step] at hs
    split at hs
    · cases hs
    split at hs
    · rename_i c hc
      split at hs
      · simp only [Option.some.injEq] at hs; subst hs
        exact h.set hc rfl rfl rfl rfl fun hn => ⟨hn.used, hn.packets, hn.nostop, hn.done⟩
      · cases hs
    · cases hs
  | next i =>
    simp only [State.step] at hs
    split at hs
    · cases hs
    split at hs
    · cases hs
    rename_i c hc
    have hn := h.conn i c hc
    have hlt := (List.getElem?_eq_some_iff.1 hc).1
    split at hs
    · cases hs
    rename_i hd
    have hd : c.done = false := by simpa using hd
    split at hs
    · rename_i f hf
      split at hs
      · rename_i p hp
        have hpo : passOf g c.addr f = some p := by simp [passOf, hp]
        have key : ∀ b u, u.ins = s.ins.set i { c with used := c.used + 1 } → u.offered = s.offered ++ [(i, p, b)] →
            ((if b then u.ctx = s.ctx ++ [p] else u.ctx = s.ctx)) → u.given = s.given → (g.waits = true → b = true) → InInv g u := by
          intro b u h1 h2 h3 h5 h4
          constructor
          · intro j d hd'
            rw [offeredFrom_append s u i p b h2]
            by_cases hj : i = j
            · subst hj
              rw [h1, List.getElem?_set_self hlt] at hd'
              cases hd'
              rw [if_pos rfl]
              have := hn.next hd hf (by rw [hp]; nofun)
              rwa [hpo] at this
            · rw [h1, List.getElem?_set_ne hj] at hd'
              rw [if_neg hj, List.append_nil]
              exact h.conn j d hd'
          · intro o ho
            rw [h2, List.mem_append] at ho
            rw [h1, List.length_set]
            rcases ho with ho | ho
            · exact h.known o ho
            · simp only [List.mem_singleton] at ho; subst ho; exact hlt
          · have ha := h.channel
            cases b with
            | true =>
              simp only [if_true] at h3
              rw [h2, h3, h5]; simp [ha]
            | false =>
              simp only [Bool.false_eq_true, if_false] at h3
              rw [h2, h3, h5]; simp [ha]
          · intro hw o ho
            rw [h2, List.mem_append] at ho
            rcases ho with ho | ho
            · exact h.waits hw o ho
            · simp only [List.mem_singleton] at ho; subst ho; exact h4 hw
        split at hs
        · simp only [Option.some.injEq] at hs; subst hs
          exact key true _ rfl rfl rfl rfl (fun _ => rfl)
        · split at hs
          · cases hs
          · rename_i hw
            simp only [Option.some.injEq] at hs; subst hs
            exact key false _ rfl rfl rfl rfl (fun hw' => absurd hw' hw)
      · rename_i hp
        simp only [Option.some.injEq] at hs; subst hs
        refine h.set hc rfl rfl rfl rfl fun hn => ?_
        have := hn.next hd hf (by rw [hp]; nofun)
        rwa [show passOf g c.addr f = none by simp [passOf, hp], Option.toList_none, List.append_nil] at this
      · rename_i hp
        simp only [Option.some.injEq] at hs; subst hs
        exact h.set hc rfl rfl rfl rfl fun hn => ⟨hn.used, hn.packets, hn.nostop, fun _ => .inr ⟨f, hf, hp⟩⟩
    · rename_i hf
      split at hs
      · simp only [Option.some.injEq] at hs; subst hs
        refine h.set hc rfl rfl rfl rfl fun hn => ⟨hn.used, hn.packets, hn.nostop, fun _ => .inl ?_⟩
        have := List.getElem?_eq_none_iff.1 hf
        exact Nat.le_antisymm hn.used this
      · cases hs
  | take =>
    simp only [State.step] at hs
    split at hs
    · cases hs
    split at hs
    · cases hs
    · rename_i p ctx hctx
      simp only [Option.some.injEq] at hs; subst hs
      exact h.congr rfl rfl (by simp [hctx])
  | clientEnds =>
    simp only [State.step] at hs
    split at hs
    · cases hs
    split at hs
    · simp only [Option.some.injEq] at hs; subst hs
      exact h.congr rfl rfl rfl
    · cases hs

theorem InInv.after (hg : Grows g) {evs : List Ev} (h : After g evs s) : InInv g s :=
  After.induct (P := fun _ s => InInv g s) InInv.init (fun _ _ _ _ _ hp hs => hp.step hg hs) h

/-- A settled connection: everything that can be read has been dealt with. -/
theorem settled_all (h : InInv g s) {i : Nat} {c : Incoming} (hc : s.ins[i]? = some c) (hst : Settled g s i)
    (hns : ∀ f ∈ (g.frames c.chunks).1, g.item c.addr f ≠ .stop) :
    offeredFrom s i = ((g.frames c.chunks).1).filterMap (passOf g c.addr) := by
  have hn := h.conn i c hc
  have hu : c.used = (g.frames c.chunks).1.length := by
    rcases hst with ⟨c', hc', hd⟩ | ⟨he, hroom, hnone⟩
    · rw [hc] at hc'; cases hc'
      rcases hn.done hd with h1 | ⟨f, hf, hst⟩
      · exact h1
      · exact absurd hst (hns f (List.mem_of_getElem? hf))
    · by_cases hd : c.done = true
      · rcases hn.done hd with h1 | ⟨f, hf, hst⟩
        · exact h1
        · exact absurd hst (hns f (List.mem_of_getElem? hf))
      · refine Nat.le_antisymm hn.used (Nat.le_of_not_lt fun hlt => ?_)
        have hf := List.getElem?_eq_getElem hlt
        have hd' : c.done = false := by simpa using hd
        have hcap : s.ctx.length < capacity := hroom
        simp only [State.step, he, hc, hd', hf, Bool.false_eq_true, if_false, hcap, if_true] at hnone
        split at hnone <;> cases hnone
  rw [hn.packets, hu, List.take_length]

/-! ### What can be read from what was written -/

/-- The beginning of a list of frames, of which the last may be incomplete, consists of complete frames and an incomplete one. -/
theorem prefix_frames {α : Type} (enc : α → Bytes) (ds : List α) : ∀ (tail pre : Bytes), (tail = [] ∨ ∃ d q, enc d = tail ++ q ∧ q ≠ []) →
    pre <+: (ds.map enc).flatten ++ tail → ∃ ds' p, ds' <+: ds ∧ pre = (ds'.map enc).flatten ++ p ∧
      (p = [] ∨ (∃ d ∈ ds, ∃ q, enc d = p ++ q ∧ q ≠ []) ∨ ((∃ r, tail = p ++ r) ∧ tail ≠ [])) ∧ (pre = (ds.map enc).flatten ++ tail → (∀ d ∈ ds, enc d ≠ []) → ds' = ds) := by
  induction ds with
  | nil =>
    intro tail pre ht hp
    simp only [List.map_nil, List.flatten_nil, List.nil_append] at hp
    refine ⟨[], pre, List.prefix_rfl, by simp, ?_, fun _ _ => rfl⟩
    rcases ht with rfl | ⟨d, q, hd, hq⟩
    · left; simpa using hp
    · by_cases hpe : pre = []
      · exact .inl hpe
      · obtain ⟨r, hr⟩ := hp
        refine .inr (.inr ⟨⟨r, hr.symm⟩, ?_⟩)
        intro h0
        rw [h0] at hr
        exact hpe (List.append_eq_nil_iff.1 hr).1
  | cons d ds ih =>
    intro tail pre ht hp
    simp only [List.map_cons, List.flatten_cons, List.append_assoc] at hp
    by_cases hl : (enc d).length ≤ pre.length
    · obtain ⟨r, hr⟩ := hp
      have htk : pre.take (enc d).length = enc d := by
        have := congrArg (List.take (enc d).length) hr
        rw [List.take_append_of_le_length hl, List.take_left] at this
        exact this
      obtain ⟨pre', hpre⟩ : ∃ pre', pre = enc d ++ pre' := ⟨pre.drop (enc d).length, by rw [← htk, List.length_take, Nat.min_eq_left hl]; simp⟩
      subst hpre
      rw [List.append_assoc] at hr
      have hr' := List.append_cancel_left hr
      obtain ⟨ds', p, h1, h2, h3, h4⟩ := ih tail pre' ht ⟨r, hr'⟩
      refine ⟨d :: ds', p, ?_, ?_, ?_, ?_⟩
      · exact List.cons_prefix_cons.2 ⟨rfl, h1⟩
      · simp [h2]
      · rcases h3 with h3 | ⟨e, he, h3⟩ | h3
        · exact .inl h3
        · exact .inr (.inl ⟨e, List.mem_cons_of_mem _ he, h3⟩)
        · exact .inr (.inr h3)
      · intro heq hne
        simp only [List.map_cons, List.flatten_cons, List.append_assoc] at heq
        rw [h4 (List.append_cancel_left heq) fun e he => hne e (List.mem_cons_of_mem _ he)]
    · refine ⟨[], pre, List.nil_prefix, by simp, ?_, ?_⟩
      · obtain ⟨r, hr⟩ := hp
        have hl' : pre.length < (enc d).length := Nat.lt_of_not_le hl
        refine .inr (.inl ⟨d, List.mem_cons_self, (enc d).drop pre.length, ?_, ?_⟩)
        · have := congrArg (List.take pre.length) hr
          rw [List.take_left, List.take_append_of_le_length (Nat.le_of_lt hl')] at this
          have h5 := List.take_append_drop pre.length (enc d)
          rw [← this] at h5
          exact h5.symm
        · intro h0
          have := congrArg List.length h0
          simp at this; omega
      · intro heq _
        exfalso
        apply hl
        rw [heq]; simp

/-- MTCP: reading a beginning of a stream of bundles. -/
theorem mtcp_reads (ds : List Bytes) (tail : Bytes) (chunks : List Bytes) (hds : ∀ d ∈ ds, Spec.BundleBytes d)
    (ht : tail = [] ∨ ∃ d q, Spec.BundleBytes d ∧ Mtcp.encode d = tail ++ q ∧ q ≠ []) (hc : chunks.flatten <+: (ds.map Mtcp.encode).flatten ++ tail) :
    (Mtcp.receive chunks).failed = false ∧ (Mtcp.receive chunks).frames <+: ds ∧
    (chunks.flatten = (ds.map Mtcp.encode).flatten ++ tail → (Mtcp.receive chunks).frames = ds) := by
  obtain ⟨ds', p, h1, h2, h3, h4⟩ := prefix_frames Mtcp.encode ds tail chunks.flatten (ht.imp id fun ⟨d, q, _, h⟩ => ⟨d, q, h⟩) hc
  have hne : ∀ d, Mtcp.encode d ≠ [] := by
    intro d hd
    unfold Mtcp.encode Mtcp.header at hd
    repeat' split at hd
    all_goals simp at hd
  have hmore : ∃ d q, Spec.BundleBytes d ∧ Mtcp.encode d = p ++ q ∧ q ≠ [] := by
    rcases h3 with rfl | ⟨d, hd, q, hq⟩ | ⟨⟨r, hr⟩, hnt⟩
    · exact ⟨Props.exBundleBytes, Mtcp.encode Props.exBundleBytes, ⟨by decide, by decide, by decide⟩, rfl, hne _⟩
    · exact ⟨d, q, hds d hd, hq⟩
    · rcases ht with ht | ⟨d, q, hd, hq, hq0⟩
      · exact absurd ht hnt
      · exact ⟨d, r ++ q, hd, by rw [hq, hr, List.append_assoc], fun h => hq0 (List.append_eq_nil_iff.1 h).2⟩
  obtain ⟨d, q, hd, hq, hq0⟩ := hmore
  have hr := Props.C41_mtcp_stream_delivers_sent_bundles ds' d p q chunks (fun e he => hds e (h1.subset he)) hd hq hq0
    (by rw [Mtcp.sendBuffer_eq]; exact h2)
  rw [hr]
  exact ⟨rfl, h1, fun heq => h4 heq fun e _ => hne e⟩

/-- JSON: reading a beginning of a stream of packets. -/
theorem json_reads (ds : List Bytes) (tail : Bytes) (chunks : List Bytes) (hds : ∀ d ∈ ds, Spec.EclaFrames.Fits d)
    (ht : tail = [] ∨ ∃ d q, Spec.EclaFrames.Fits d ∧ EclaFrames.frame d = tail ++ q ∧ q ≠ []) (hc : chunks.flatten <+: (ds.map EclaFrames.frame).flatten ++ tail) :
    (EclaFrames.receive chunks).failed = false ∧ (EclaFrames.receive chunks).packets <+: ds ∧
    (chunks.flatten = (ds.map EclaFrames.frame).flatten ++ tail → (EclaFrames.receive chunks).packets = ds) := by
  obtain ⟨ds', p, h1, h2, h3, h4⟩ := prefix_frames EclaFrames.frame ds tail chunks.flatten (ht.imp id fun ⟨d, q, _, h⟩ => ⟨d, q, h⟩) hc
  have hne : ∀ d, EclaFrames.frame d ≠ [] := by
    intro d hd
    have := congrArg List.length hd
    simp [EclaFrames.frame, putUint_length] at this
  have hmore : ∃ d q, Spec.EclaFrames.Fits d ∧ EclaFrames.frame d = p ++ q ∧ q ≠ [] := by
    rcases h3 with rfl | ⟨d, hd, q, hq⟩ | ⟨⟨r, hr⟩, hnt⟩
    · exact ⟨[], EclaFrames.frame [], by unfold Spec.EclaFrames.Fits; decide, rfl, hne _⟩
    · exact ⟨d, q, hds d hd, hq⟩
    · rcases ht with ht | ⟨d, q, hd, hq, hq0⟩
      · exact absurd ht hnt
      · exact ⟨d, r ++ q, hd, by rw [hq, hr, List.append_assoc], fun h => hq0 (List.append_eq_nil_iff.1 h).2⟩
  obtain ⟨d, q, hd, hq, hq0⟩ := hmore
  have hr := Props.C50_packets_arrive_partial ds' d chunks p q (fun e he => hds e (h1.subset he)) hd hq hq0 h2
  rw [hr.1]
  exact ⟨hr.2, h1, fun heq => h4 heq fun e _ => hne e⟩

end Dtn.Bridge
