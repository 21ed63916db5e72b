import Verif.Props.NetWritten
import Verif.Props.NetSeveral
/-!
# C146: Wavefront and Kafka sinks write without the process having to stop
-/
namespace Verif
open Net Topology
open Pipeline (Through)
variable {F : Type} [F64 F]

theorem Net.flushes_none {H : Type} {k : SinkImpl F (Option H)} (hv : k.valveOpen none = false) (hf : k.flush none = none)
    {s : Option H} (hs : ∃ N, k.valveOpen (flushes k N s) = true) : ∃ h, s = some h := by
  cases s with
  | some h => exact ⟨h, rfl⟩
  | none =>
    obtain ⟨n, hn⟩ := hs
    have : ∀ n, flushes k n none = none := by
      intro n
      induction n with
      | zero => rfl
      | succ n ih => simp only [flushes, hf]; exact ih
    rw [this, hv] at hn
    cases hn

private theorem flush_now (c : Config) (hd : Distinct c) (p : Setup F) (hp : SetUp c p) (ls : Nat → Label F) (hs : ∀ t, ls t ≠ .signal)
    (number : Nat → Nat) (htk : Ticks ls number)
    (first : Str) (fs : List Str) (n : Str) (hfun : Funnel c first fs n) (hfed : ∃ u, Forwards c u first) (hn : n ∈ c.sinks)
    (hb : ∀ m ∈ fs ++ [n], Busy ls m) (hpass : ∀ m ∈ fs, PassesPulses (p.filter m)) (hroom : ∀ t, ∀ m ∈ fs ++ [n], (run p ls t).lost m = [])
    (hre : ValveReopens p ls n)
    (interval : Nat) (hiv : ∀ st, (p.sink n).impl.flushInterval st = some interval) (T : Nat) :
    ∃ t, T ≤ t ∧ ∃ received out, Through (fs.map p.filter) (received.map (·.2)) out ∧ FromSources c p ls first T t received ∧
      ∃ m r j recv, (run p ls t).nodes n = some (.sink (p.sink n) m r) ∧
        r = SinkRun.steps (p.sink n).impl m j { state := (p.sink n).start, queue := recv } ∧
        (∃ N, (p.sink n).impl.valveOpen (flushes (p.sink n).impl N r.state) = true) ∧
        ∃ before s idx after, r.calls = before ++ .pulseFlush s idx :: after ∧ out.filter Event.isPayload <+: deliveredBy before := by
  obtain ⟨t, ht, received, out, a1, a2, m, r, j, recv, b1, b2, -, b4⟩ := at_flush c hd p hp ls hs number htk first fs n hfun hfed hn hb hpass hroom hre interval hiv T
  exact ⟨t, ht, received, out, a1, a2, m, r, j, recv, b1, b2, hre t m r b1, b4⟩

private theorem wavefront_written (ext : Wavefront.Ext F) (interval : Nat) (clock : Nat → Int) (os : Nat → List Wavefront.Io)
    (w : Int) (ps : List (Str × F)) (age : Option Nat) (connected : Bool) (pc : Wavefront.PadControl) (tags : TagMap)
    (hage : ∀ a, age = some a → a < 2 ^ 63) (sources j : Nat) (recv : List (Option (Event F))) :
    let r := SinkRun.steps (wavefrontImpl ext interval clock os) sources j
      { state := some { state := Wavefront.State.init w ps age connected pc tags }, queue := recv }
    ∀ before s idx after, r.calls = before ++ .pulseFlush s idx :: after → ∀ h, r.state = some h →
      ∃ bs cur d, WfBetween ext clock w ps age pc tags bs cur h d ∧ pointsIn (deliveredBy before) <+: bs.flatMap fun b => b.points.map (·.2) := by
  have other : ∀ {bs : List (WfFlush F)} {cur h d} (e : Event F), pointsIn [e] = [] → WfBetween ext clock w ps age pc tags bs cur h d →
      WfBetween ext clock w ps age pc tags bs cur h (d ++ [e]) := by
    intro bs cur h d e he hb
    refine { hb with points := ?_ }
    have := hb.points
    simp only [pointsIn] at this he ⊢
    rw [List.filterMap_append, this, he, List.append_nil]
  refine flushed_induction (wavefrontImpl ext interval clock os)
    (fun s d => ∀ h, s = some h → ∃ bs cur, WfBetween ext clock w ps age pc tags bs cur h d)
    (fun s d => ∀ h, s = some h → ∃ bs cur d', WfBetween ext clock w ps age pc tags bs cur h d' ∧
      pointsIn d <+: bs.flatMap fun b => b.points.map (·.2)) ?_ ?_ ?_ ?_ ?_ ?_ ?_ ?_ ?_ ?_ sources j _ ?_ recv
  · intro s d t hP _ h he
    cases s with
    | none => simp [wavefrontImpl] at he
    | some g =>
      obtain ⟨bs, cur, hb⟩ := hP g rfl
      exact ⟨_, _, wf_deliver_between ext interval clock os w ps age pc tags hage bs cur g h d t hb he⟩
  · intro s d t hP _ h he
    obtain ⟨bs, cur, hb⟩ := hP h he
    exact ⟨bs, cur, other (.log t) rfl hb⟩
  · intro s d t hP _ h he
    obtain ⟨bs, cur, hb⟩ := hP h he
    exact ⟨bs, cur, other (.raw t) rfl hb⟩
  · intro s d hP h he
    cases s with
    | none => simp [wavefrontImpl] at he
    | some g =>
      obtain ⟨bs, cur, hb⟩ := hP g rfl
      exact ⟨_, [], wf_flush_between ext interval clock os w ps age pc tags bs cur g h d hb he⟩
  · intro s d hP h he
    cases s with
    | none => simp [wavefrontImpl] at he
    | some g =>
      obtain ⟨bs, cur, hb⟩ := hP g rfl
      have hn := wf_flush_between ext interval clock os w ps age pc tags bs cur g h d hb he
      refine ⟨_, [], d, hn, ?_⟩
      rw [← hn.points]; simp
  · intro s d t hW h he
    cases s with
    | none => simp [wavefrontImpl] at he
    | some g =>
      obtain ⟨bs, cur, d', hb, hpre⟩ := hW g rfl
      exact ⟨_, _, _, wf_deliver_between ext interval clock os w ps age pc tags hage bs cur g h d' t hb he, hpre⟩
  · intro s d t hW h he; exact hW h he
  · intro s d t hW h he; exact hW h he
  · intro s d hW h he
    cases s with
    | none => simp [wavefrontImpl] at he
    | some g =>
      obtain ⟨bs, cur, d', hb, hpre⟩ := hW g rfl
      refine ⟨_, _, _, wf_flush_between ext interval clock os w ps age pc tags bs cur g h d' hb he, ?_⟩
      rw [List.flatMap_append]; exact hpre.trans (List.prefix_append _ _)
  · intro s d hW h he
    cases s with
    | none => simp [wavefrontImpl] at he
    | some g =>
      obtain ⟨bs, cur, d', hb, hpre⟩ := hW g rfl
      refine ⟨_, _, _, wf_flush_between ext interval clock os w ps age pc tags bs cur g h d' hb he, ?_⟩
      rw [List.flatMap_append]; exact hpre.trans (List.prefix_append _ _)
  · intro h he
    simp only [Option.some.injEq] at he
    subst he
    refine ⟨[], [], rfl, rfl, rfl, rfl, rfl, ⟨rfl, ?_⟩, rfl, rfl, rfl⟩
    intro A b B hA
    simp at hA

/-- **C146 (Wavefront).**  The same for a Wavefront sink: the points among what the filters make of everything the sources had sent by `T` have been given to its
flushes, and every flush so far ended with one complete write of the lines of what the store then held, as in C86. -/
theorem C146_wavefront_partial (c : Config) (hd : Distinct c) (p : Setup F) (hp : SetUp c p) (ls : Nat → Label F) (hs : ∀ t, ls t ≠ .signal)
    (number : Nat → Nat) (htk : Ticks ls number)
    (first : Str) (fs : List Str) (n : Str) (hfun : Funnel c first fs n) (hfed : ∃ u, Forwards c u first) (hn : n ∈ c.sinks)
    (hb : ∀ m ∈ fs ++ [n], Busy ls m) (hpass : ∀ m ∈ fs, PassesPulses (p.filter m)) (hroom : ∀ t, ∀ m ∈ fs ++ [n], (run p ls t).lost m = [])
    (hre : ValveReopens p ls n)
    (ext : Wavefront.Ext F) (interval : Nat) (clock : Nat → Int) (os : Nat → List Wavefront.Io)
    (w : Int) (ps : List (Str × F)) (age : Option Nat) (connected : Bool) (pc : Wavefront.PadControl) (tags : TagMap)
    (hage : ∀ a, age = some a → a < 2 ^ 63)
    (hk : p.sink n = ⟨_, wavefrontImpl ext interval clock os, some { state := Wavefront.State.init w ps age connected pc tags }⟩) (T : Nat) :
    ∃ t, T ≤ t ∧ ∃ received out m r k, Through (fs.map p.filter) (received.map (·.2)) out ∧ FromSources c p ls first T t received ∧
      (run p ls t).nodes n = some (.sink ⟨_, wavefrontImpl ext interval clock os, some { state := Wavefront.State.init w ps age connected pc tags }⟩ m r) ∧
      r.state = some k ∧ ∃ bs : List (WfFlush F),
        (pointsIn out <+: bs.flatMap fun b => b.points.map (·.2)) ∧
        ((bs.flatMap fun b => b.points.map (·.1) ++ [b.time]) <+: (List.range k.calls).map clock) ∧ k.log.length = bs.length ∧
        ∀ A b B, bs = A ++ b :: B → ∃ store pts shown text W,
          runBucket ext.nameTagHash (Buckets.new w) (wfHistory age A ++ b.adds age) = some store ∧ store.iter = some pts ∧
          Wavefront.Padded pts pts shown ∧ ((∀ k, Wavefront.pads pc k = false) → shown = pts) ∧
          (Wavefront.HashOk ext pts → ∀ k, Wavefront.pads pc k = false →
            (shown.filter fun t => t.kind = k) = pts.filter fun t => t.kind = k) ∧
          k.log[A.length]? = some (W ++ [.complete text]) ∧ (∀ e ∈ W, ∃ n, e = .part (text.take n) ∨ e = .delay n) ∧
          ∀ vals, Wavefront.Ordered ext vals → (∀ t ∈ shown, ∀ x, Wavefront.printed ps t x → vals x) →
            text = (shown.map (Wavefront.pointText ext ps tags)).flatten := by
  obtain ⟨t, ht, received, out, a1, a2, a3⟩ := flush_now c hd p hp ls hs number htk first fs n hfun hfed hn hb hpass hroom hre interval
    (by rw [hk]; intro st; rfl) T
  rw [hk] at a3
  obtain ⟨m, r, j, recv, b1, b2, b3, before, s, idx, after, b4, b5⟩ := a3
  obtain ⟨k, hkk⟩ := flushes_none rfl rfl b3
  refine ⟨t, ht, received, out, m, r, k, a1, a2, b1, hkk, ?_⟩
  subst b2
  obtain ⟨bs, cur, d, hbt, hpre⟩ := wavefront_written ext interval clock os w ps age connected pc tags hage m j recv before s idx after b4 k hkk
  refine ⟨bs, ?_, ?_, hbt.flushed.1, hbt.flushed.2⟩
  · refine List.IsPrefix.trans ?_ hpre
    rw [← pointsIn_payload out]
    obtain ⟨x, hx⟩ := b5
    rw [← hx]
    simp only [pointsIn, List.filterMap_append]
    exact List.prefix_append _ _
  · rw [← hbt.times]; exact List.prefix_append _ _

/-! ## When the valve of a Wavefront sink opens again -/

/-- A gauge or a counter whose value is one of `vals`. -/
def Plain (vals : F → Prop) (t : Telemetry F) : Prop := (∃ v, t.value = .set v ∧ vals v) ∨ ∃ v, t.value = .sum v ∧ vals v

section
open Buckets
open Wavefront (Ext Io Wire)

private theorem plain_add {vals : F → Prop} (hadd : ∀ a b, vals a → vals b → vals (F64.add a b)) {a b : Telemetry F} (ha : Plain vals a) (hb : Plain vals b) :
    Plain vals (a.addAssign b) := by
  have hv : (a.addAssign b).value = a.value.add b.value := rfl
  rcases ha with ⟨x, h1, h2⟩ | ⟨x, h1, h2⟩ <;> rcases hb with ⟨y, h3, h4⟩ | ⟨y, h3, h4⟩ <;> simp only [Plain, hv, h1, h3, Value.add]
  · exact .inl ⟨y, rfl, h4⟩
  · exact .inr ⟨_, rfl, hadd _ _ h2 h4⟩
  · exact .inl ⟨y, rfl, h4⟩
  · exact .inr ⟨_, rfl, hadd _ _ h2 h4⟩

private theorem nodup_length {α : Type} [DecidableEq α] : ∀ (l m : List α), l.Nodup → (∀ x ∈ l, x ∈ m) → l.length ≤ m.length := by
  intro l
  induction l with
  | nil => intro m _ _; simp
  | cons a l ih =>
    intro m hn hs
    have ha : a ∈ m := hs a (by simp)
    have := ih (m.erase a) (List.nodup_cons.1 hn).2 (fun x hx => by
      have hne : x ≠ a := fun h => (List.nodup_cons.1 hn).1 (h ▸ hx)
      exact (List.mem_erase_of_ne hne).2 (hs x (by simp [hx])))
    rw [List.length_erase_of_mem ha] at this
    have : 0 < m.length := List.length_pos_of_mem ha
    simp only [List.length_cons]
    omega

/-- What the store of such a sink is like between calls. -/
private structure Small (vals : F → Prop) (hash : Str × TagMap → Nat) (S : Str × TagMap → Prop) (w : Int) (b : Buckets F) : Prop where
  inv : Inv hash S w b
  plain : ∀ q ∈ b.values.flatten, Plain vals q
  count : b.count = b.values.flatten.length
  few : b.values.flatten.length ≤ 10001

private theorem Small.add {vals : F → Prop} (hadd : ∀ a b, vals a → vals b → vals (F64.add a b)) {hash : Str × TagMap → Nat} {S : Str × TagMap → Prop}
    {w : Int} (hw : w ≠ 0) (hinj : ∀ x y, S x → S y → hash x = hash y → x = y) {b : Buckets F} (h : Small vals hash S w b) (hopen : b.count ≤ 10000)
    (now : Int) (v : Telemetry F) (hv : Plain vals v) (hS : S v.hashInput) : ∃ b', b.add hash now v = some b' ∧ Small vals hash S w b' := by
  obtain ⟨b', kp, kq, vp, vq, row, row', ins, h1, h2, h3, h4, h5⟩ := h.inv.add hw hinj now v hS
  have hfs := h3.flatStep hinj hS h4 h5 h2
  refine ⟨b', h1, h2, ?_, ?_, ?_⟩
  · intro q hq
    cases hfs with
    | merge A B cur _ _ e e' =>
      have hp := h.plain
      rw [e] at hp; rw [e'] at hq
      simp only [List.mem_append, List.mem_cons] at hp hq
      rcases hq with hq | rfl | hq
      · exact hp _ (.inl hq)
      · exact plain_add hadd (hp _ (.inr (.inl rfl))) hv
      · exact hp _ (.inr (.inr hq))
    | fresh A B _ e e' =>
      have hp := h.plain
      rw [e] at hp; rw [e'] at hq
      simp only [List.mem_append, List.mem_cons] at hp hq
      rcases hq with hq | rfl | hq
      · exact hp _ (.inl hq)
      · exact hv
      · exact hp _ (.inr hq)
    | carry A B c _ _ _ e e' =>
      have hp := h.plain
      rw [e] at hp; rw [e'] at hq
      simp only [List.mem_append, List.mem_cons] at hp hq
      rcases hq with hq | rfl | rfl | hq
      · exact hp _ (.inl hq)
      · exact hp _ (.inr (.inl rfl))
      · exact plain_add hadd (hp c (.inr (.inl rfl))) hv
      · exact hp _ (.inr (.inr hq))
  · have hc := h.count
    obtain ⟨f1, f2⟩ := h3.flatten
    have hlen : row'.length = row.length + (if ins then 1 else 0) := by
      cases h5 with
      | merge pre post cur _ e e' => subst e e'; simp
      | fresh pre post _ _ _ e e' => subst e e'; simp; omega
      | carry pre post q _ _ _ _ e e' => subst e e'; simp; omega
    rw [h3.count', f2]
    rw [f1] at hc
    simp only [List.length_append] at hc ⊢
    rw [hlen]
    cases ins
    · simp only [Bool.false_eq_true, if_false]; omega
    · have : satAdd b.count 1 = b.count + 1 := by unfold satAdd u64Max; omega
      simp only [if_true, this]; omega
  · have := h.count
    cases hfs with
    | merge A B cur _ _ e e' => rw [e] at this; rw [e']; simp at this ⊢; omega
    | fresh A B _ e e' => rw [e] at this; rw [e']; simp at this ⊢; omega
    | carry A B c _ _ _ e e' => rw [e] at this; rw [e']; simp at this ⊢; omega

private theorem Small.reset {vals : F → Prop} {hash : Str × TagMap → Nat} {S : Str × TagMap → Prop} {w : Int} {b : Buckets F} (h : Small vals hash S w b) (now : Int) :
    Small vals hash S w (b.reset now) ∧ ∀ row ∈ (b.reset now).values, row.length ≤ 1 := by
  have hc := reset_count now b (by have := h.few; unfold u64Max; omega)
  have hrow : ∀ row ∈ (b.reset now).values, row.length ≤ 1 ∧ ∀ q ∈ row, Plain vals q := by
    intro row hr
    simp only [Buckets.reset, List.mem_map] at hr
    obtain ⟨old, ho, rfl⟩ := hr
    rw [resetRow_eq]
    cases hl : old.getLast? with
    | none => simp
    | some l =>
      simp only
      have hp : Plain vals l := h.plain l (List.mem_flatten.2 ⟨old, ho, List.mem_of_getLast? hl⟩)
      split
      · exact ⟨by simp, fun q hq => by rw [List.mem_singleton] at hq; subst hq; exact hp⟩
      · simp
  refine ⟨⟨h.inv.reset now, ?_, hc.1, Nat.le_trans hc.2 h.few⟩, fun row hr => (hrow row hr).1⟩
  intro q hq
  obtain ⟨row, hr, hq⟩ := List.mem_flatten.1 hq
  exact (hrow row hr).2 q hq

/-- A store just reset holds at most one point of each series. -/
private theorem Small.length {vals : F → Prop} {hash : Str × TagMap → Nat} {reps : List (Telemetry F)} {w : Int} {b : Buckets F}
    (h : Small vals hash (seriesOf reps) w b) (hone : ∀ row ∈ b.values, row.length ≤ 1) : b.values.flatten.length ≤ reps.length := by
  have hrow : ∀ i (h1 : i < b.keys.length) (h2 : i < b.values.length), RowOk hash (seriesOf reps) w b.keys[i] b.values[i] := by
    intro i h1 h2
    refine h.inv.rows (b.keys[i], b.values[i]) ?_
    have hz : i < (b.keys.zip b.values).length := by simp; omega
    have := List.getElem_mem hz
    rwa [List.getElem_zip] at this
  have hnd : (b.values.flatten.map (·.hashInput)).Nodup := by
    rw [List.Nodup, List.pairwise_map, List.pairwise_flatten]
    constructor
    · intro row hr
      have := hone row hr
      match row, this with
      | [], _ => simp
      | [_], _ => simp
    · rw [List.pairwise_iff_getElem]
      intro i j h1 h2 hij x hx y hy heq
      have hk1 := (hrow i (by rw [h.inv.wf.len]; exact h1) h1).key x hx
      have hk2 := (hrow j (by rw [h.inv.wf.len]; exact h2) h2).key y hy
      have hlt := List.pairwise_iff_getElem.1 h.inv.wf.sorted i j (by rw [h.inv.wf.len]; exact h1) (by rw [h.inv.wf.len]; exact h2) hij
      rw [heq] at hk1
      omega
  have := nodup_length (b.values.flatten.map (·.hashInput)) (reps.map (·.hashInput)) hnd ?_
  · rwa [List.length_map, List.length_map] at this
  · intro x hx
    obtain ⟨q, hq, rfl⟩ := List.mem_map.1 hx
    obtain ⟨row, hr, hq⟩ := List.mem_flatten.1 hq
    obtain ⟨i, hi, rfl⟩ := List.mem_iff_getElem.1 hr
    obtain ⟨v, hv, he⟩ := (hrow i (by rw [h.inv.wf.len]; exact hi) hi).known q hq
    rw [← he]
    exact List.mem_map.2 ⟨v, hv, rfl⟩

private theorem loop_ends (now : Int) (B : List Io) : ∀ (A : List Io) (s : Wavefront.State F) (wire : List Wire),
    ∃ s' wire', s.flushLoop now (A ++ .ok :: .ok :: B) wire = (s', wire', true) ∧ s'.aggrs = s.aggrs.reset now ∧ s'.padControl = s.padControl := by
  intro A
  induction A with
  | nil =>
    intro s wire
    cases hc : s.connected <;> simp [Wavefront.State.flushLoop, hc]
  | cons io A ih =>
    intro s wire
    simp only [List.cons_append, Wavefront.State.flushLoop]
    split
    · split
      · exact ⟨_, _, rfl, rfl, rfl⟩
      · obtain ⟨s', w', h1, h2⟩ := ih _ _
        exact ⟨s', w', h1, h2⟩
    · obtain ⟨s', w', h1, h2⟩ := ih _ _
      exact ⟨s', w', h1, h2⟩

/-- **C146 (Wavefront, valve).**  A Wavefront sink that pads nothing, whose proxy can always be written to in the end, and which is given gauges and counters of
at most 10,000 series, with values that can be compared however they are added up: flushing it opens its valve.  (With more series than that see C72.) -/
theorem C146_wavefront_reopens (c : Config) (hd : Distinct c) (p : Setup F) (hp : SetUp c p) (ls : Nat → Label F) (n : Str) (hn : n ∈ c.sinks)
    (ext : Ext F) (interval : Nat) (clock : Nat → Int) (os : Nat → List Io) (hos : ∀ i, ∃ A B, os i = A ++ .ok :: .ok :: B)
    (w : Int) (hw : w ≠ 0) (ps : List (Str × F)) (age : Option Nat) (connected : Bool) (pc : Wavefront.PadControl) (hpc : ∀ k, Wavefront.pads pc k = false) (tags : TagMap)
    (hk : p.sink n = ⟨_, wavefrontImpl ext interval clock os, some { state := Wavefront.State.init w ps age connected pc tags }⟩)
    (vals : F → Prop) (hord : Wavefront.Ordered ext vals) (hadd : ∀ a b, vals a → vals b → vals (F64.add a b))
    (reps : List (Telemetry F)) (hfew : reps.length ≤ 10000) (hsep : Separates ext.nameTagHash reps)
    (hgiven : ∀ t, ∀ x ∈ (run p ls t).log n, ∀ v, x.2 = .telemetry v → Plain vals v ∧ ∃ u ∈ reps, SameSeries v u) :
    ValveReopens p ls n := by
  have hinj := separates_inj hsep
  have flushed : ∀ h : Hosted (Wavefront.State F) (List Wire), Small vals ext.nameTagHash (seriesOf reps) w h.state.aggrs → h.state.padControl = pc →
      ∃ g, (wavefrontImpl ext interval clock os).flush (some h) = some g ∧ Small vals ext.nameTagHash (seriesOf reps) w g.state.aggrs ∧
        g.state.padControl = pc ∧ g.state.valveOpen = true := by
    intro h hsm hpad
    have hit := iter_eq h.state.aggrs hsm.inv.wf.len
    obtain ⟨s1, e1, -, e2, -⟩ := C71_text_partial ext (clock h.calls) h.state _ h.state.aggrs.values.flatten vals hit
      (by rw [Wavefront.padding_off _ _ _ _ _ (hpad ▸ hpc), List.map_map]; rfl) hord (by
        intro t ht
        rcases hsm.plain t ht with ⟨v, h1, h2⟩ | ⟨v, h1, h2⟩ <;>
          simp only [Wavefront.Answers, Wavefront.printed, h1, true_and] <;> rintro x rfl <;> exact h2)
    have hpad1 : s1.padControl = pc := by
      rw [← hpad]
      simp only [Wavefront.State.formatStats] at e1
      split at e1
      · cases e1
      split at e1
      · cases e1
      simp only [Option.some.injEq] at e1; rw [← e1]
    obtain ⟨A, B, ho⟩ := hos h.calls
    obtain ⟨s2, wire, e3, e4, e5⟩ := loop_ends (clock h.calls) B A s1 []
    have hs1 := hsm.reset (clock h.calls)
    have hs2 := hs1.1.reset (clock h.calls)
    refine ⟨{ state := s2, calls := h.calls + 1, log := h.log ++ [wire] }, ?_, ?_, ?_, ?_⟩
    · simp only [wavefrontImpl, Option.bind_some, Wavefront.State.flush, e1, Option.map_some, ho, e3]
    · rw [e4, e2]; exact hs2.1
    · exact e5.trans hpad1
    · have hl := hs2.1.length hs2.2
      have hc := hs2.1.count
      simp only [Wavefront.State.valveOpen, e4, e2, Bool.not_eq_true', decide_eq_false_iff_not]
      omega
  intro t m r hr
  obtain ⟨m', r', j, h1, h2⟩ := C123_alone c hd p hp ls t n hn
  have hgiven : ∀ x ∈ pointsIn (deliveredBy r.calls), Plain vals x ∧ ∃ v ∈ reps, SameSeries x v := by
    obtain ⟨w1, -⟩ := C57_mutual c hd _ hp.wired
    obtain ⟨ups, hu⟩ := mem_fst (w1 ▸ hn)
    obtain ⟨r3, cs, g1, g2⟩ := sink_log (ls := ls) (linked hd hp.wired) hu (iv := some interval) (by rw [hk]; intro _; rfl) t
    rw [hr] at g1
    simp only [Option.some.injEq, Node.sink.injEq, heq_eq_eq, true_and] at g1
    obtain ⟨-, rfl⟩ := g1
    intro x hx
    rw [g2.delivered] at hx
    simp only [pointsIn, List.mem_filterMap, List.mem_filter] at hx
    obtain ⟨e, ⟨he, -⟩, hx⟩ := hx
    have hm : e ∈ ((run p ls t).log n).map (·.2) := by rw [g2.split]; simp [he]
    obtain ⟨y, hy, rfl⟩ := List.mem_map.1 hm
    refine hgiven t y hy x ?_
    cases hy2 : y.2 <;> simp_all
  rw [hr] at h1
  simp only [Option.some.injEq, Node.sink.injEq, heq_eq_eq, true_and] at h1
  obtain ⟨rfl, rfl⟩ := h1
  clear hr
  generalize ((run p ls t).log n).map (fun x => some x.2) = recv at h2
  generalize p.sink n = sk at hk r h2 hgiven ⊢
  subst hk
  have hind := SinkRun.induction (wavefrontImpl ext interval clock os)
    (fun s d => (∀ x ∈ pointsIn d, Plain vals x ∧ ∃ v ∈ reps, SameSeries x v) →
      ∃ h, s = some h ∧ Small vals ext.nameTagHash (seriesOf reps) w h.state.aggrs ∧ h.state.padControl = pc)
    (fun s d => (∀ x ∈ pointsIn d, Plain vals x ∧ ∃ v ∈ reps, SameSeries x v) →
      ∃ h, s = some h ∧ Small vals ext.nameTagHash (seriesOf reps) w h.state.aggrs ∧ h.state.padControl = pc)
    ?_ ?_ ?_ ?_ ?_ m j (some { state := Wavefront.State.init w ps age connected pc tags }) ?_ recv
  · rw [← h2] at hind
    obtain ⟨h, e1, e2, e3⟩ : ∃ h, r.state = some h ∧ Small vals ext.nameTagHash (seriesOf reps) w h.state.aggrs ∧ h.state.padControl = pc := by
      cases hret : r.returned with
      | false => exact hind.1 hret hgiven
      | true => exact hind.2 hret hgiven
    obtain ⟨g, f1, -, -, f2⟩ := flushed h e2 e3
    refine ⟨1, ?_⟩
    simp only [flushes, e1, f1]
    simpa [wavefrontImpl] using f2
  · intro s d v hP hopen hall
    have hall' : ∀ x ∈ pointsIn d, Plain vals x ∧ ∃ v ∈ reps, SameSeries x v := fun x hx => hall x (by
      simp only [pointsIn, List.filterMap_append, List.mem_append] at hx ⊢; exact .inl hx)
    obtain ⟨h, rfl, e2, e3⟩ := hP hall'
    obtain ⟨hv, u, hu, hser⟩ := hall v (by simp [pointsIn])
    have hcnt : h.state.aggrs.count ≤ 10000 := by simpa [wavefrontImpl, Wavefront.State.valveOpen] using hopen
    obtain ⟨b', a1, a2⟩ := e2.add hadd hw hinj hcnt (clock h.calls) v hv ⟨u, hu, (sameSeries_iff.1 hser).symm⟩
    simp only [wavefrontImpl, Option.bind_some, Wavefront.State.deliver, a1]
    repeat' split
    all_goals first | exact ⟨_, rfl, a2, e3⟩ | exact ⟨_, rfl, e2, e3⟩
  · intro s d l hP _ hall
    exact hP (fun x hx => hall x (by simp only [pointsIn, List.filterMap_append, List.mem_append] at hx ⊢; exact .inl hx))
  · intro s d l hP _ hall
    exact hP (fun x hx => hall x (by simp only [pointsIn, List.filterMap_append, List.mem_append] at hx ⊢; exact .inl hx))
  · intro s d hP hall
    obtain ⟨h, rfl, e2, e3⟩ := hP hall
    obtain ⟨g, f1, f2, f3, -⟩ := flushed h e2 e3
    exact ⟨g, f1, f2, f3⟩
  · intro s d hP _ hall
    obtain ⟨h, rfl, e2, e3⟩ := hP hall
    obtain ⟨g, f1, f2, f3, -⟩ := flushed h e2 e3
    exact ⟨g, f1, f2, f3⟩
  · intro _
    exact ⟨_, rfl, ⟨Inv.new .., by simp [Wavefront.State.init, Buckets.new], rfl, by simp [Wavefront.State.init, Buckets.new]⟩, rfl⟩

end

/-! ## Kafka -/

private def Accounted (k : Kafka) (d : List (Event F)) : Prop :=
  (∀ o, (Kafka.finals k.trace).count o + (k.messages.map (·.sub.connectionId)).count o = ((rawsIn d).map (·.connectionId)).count o) ∧
  ∀ c : Nat, (Kafka.acks k.trace).count c + (k.messages.map (·.sub.connectionId)).count (some c) = ((rawsIn d).map (·.connectionId)).count (some c)

private def Answered (k : Kafka) (d : List (Event F)) : Prop :=
  (∀ o, ((rawsIn d).map (·.connectionId)).count o ≤ (Kafka.finals k.trace).count o) ∧
  ∀ c : Nat, ((rawsIn d).map (·.connectionId)).count (some c) ≤ (Kafka.acks k.trace).count c

private theorem kafka_flush (utf8 : Bytes → Bool) {g k : Kafka} (he : g.flush utf8 = some k) : k.messages = [] ∧ k.messageBytes = 0 ∧
    (∀ o, (Kafka.finals k.trace).count o = (Kafka.finals g.trace).count o + (g.messages.map (·.sub.connectionId)).count o) ∧
    ∀ c : Nat, (Kafka.acks k.trace).count c = (Kafka.acks g.trace).count c + (g.messages.map (·.sub.connectionId)).count (some c) := by
  obtain ⟨h1, hb, es, h2, h3, -⟩ := C27_flush_accounts utf8 g k he
  obtain ⟨es', h4, h5, -⟩ := C28_acks_exactly_once utf8 g k he
  rw [h2, List.append_cancel_left_eq] at h4
  subst h4
  refine ⟨h1, hb, fun o => ?_, fun c => ?_⟩
  · rw [h2, Kafka.finals_append, List.count_append, h3]
  · rw [h2, Kafka.acks_append, List.count_append, h5]

private theorem kafka_answered (utf8 : Bytes → Bool) (interval : Nat) (topic : Str) (maxBytes : Nat) (script : List (Submission → KOutcome))
    (sources j : Nat) (recv : List (Option (Event F))) :
    let r := SinkRun.steps (kafkaImpl utf8 interval) sources j
      { state := some { topicName := topic, maxMessageBytes := maxBytes, script := script }, queue := recv }
    ∀ before s idx after, r.calls = before ++ .pulseFlush s idx :: after → ∀ k, r.state = some k → Answered k (deliveredBy before) := by
  have raws : ∀ (d : List (Event F)) (e : Event F), rawsIn (d ++ [e]) = rawsIn d ++ rawsIn [e] := by
    intro d e; simp [rawsIn, List.filterMap_append]
  have wf : ∀ (s : Option Kafka) (d : List (Event F)), (∀ k, s = some k → Answered k d) →
      ∀ k, (kafkaImpl (F := F) utf8 interval).flush s = some k → Answered k d := by
    intro s d hW k he
    simp only [kafkaImpl, Option.bind_eq_some_iff] at he
    obtain ⟨g, rfl, he⟩ := he
    obtain ⟨-, -, h3, h4⟩ := kafka_flush utf8 he
    obtain ⟨w1, w2⟩ := hW g rfl
    exact ⟨fun o => by rw [h3]; have := w1 o; omega, fun c => by rw [h4]; have := w2 c; omega⟩
  refine flushed_induction (kafkaImpl (F := F) utf8 interval) (fun s d => ∀ k, s = some k → Accounted k d)
    (fun s d => ∀ k, s = some k → Answered k d) ?_ ?_ ?_ ?_ ?_ ?_ ?_ ?_ wf wf sources j _ ?_ recv
  · intro s d t hP _ h he
    simp only [Accounted, raws]
    simpa [rawsIn, Accounted] using hP h he
  · intro s d t hP _ h he
    simp only [Accounted, raws]
    simpa [rawsIn, Accounted] using hP h he
  · intro s d t hP _ k' he
    simp only [kafkaImpl, Option.bind_eq_some_iff] at he
    obtain ⟨g, rfl, he⟩ := he
    obtain ⟨p1, p2⟩ := hP g rfl
    simp only [Kafka.deliverRaw, Kafka.tryPayload] at he
    split at he
    · simp only [Option.map_some, Option.some.injEq] at he
      subst he
      simp only [Accounted, rawsIn] at p1 p2 ⊢
      refine ⟨fun o => ?_, fun c => ?_⟩
      · have := p1 o
        simp only [Kafka.finals_append, List.filterMap_append, List.map_append, List.count_append]
        simp only [Kafka.finals, List.filterMap_cons, List.filterMap_nil, List.map_cons, List.map_nil, List.count_nil] at this ⊢
        omega
      · have := p2 c
        simp only [Kafka.acks_append, List.filterMap_append, List.map_append, List.count_append]
        simp only [Kafka.acks, List.filterMap_cons, List.filterMap_nil, List.map_cons, List.map_nil, List.count_nil] at this ⊢
        omega
    · simp at he
  · intro s d hP k he
    simp only [kafkaImpl, Option.bind_eq_some_iff] at he
    obtain ⟨g, rfl, he⟩ := he
    obtain ⟨h1, -, h3, h4⟩ := kafka_flush utf8 he
    obtain ⟨p1, p2⟩ := hP g rfl
    exact ⟨fun o => by rw [h1, h3, p1]; rfl, fun c => by rw [h1, h4, p2]; rfl⟩
  · intro s d hP k he
    simp only [kafkaImpl, Option.bind_eq_some_iff] at he
    obtain ⟨g, rfl, he⟩ := he
    obtain ⟨h1, -, h3, h4⟩ := kafka_flush utf8 he
    obtain ⟨p1, p2⟩ := hP g rfl
    exact ⟨fun o => by rw [h3, p1]; exact Nat.le_refl _, fun c => by rw [h4, p2]; exact Nat.le_refl _⟩
  · intro s d t hW k he; exact hW k he
  · intro s d t hW k he; exact hW k he
  · intro s d t hW k he
    simp only [kafkaImpl, Option.bind_eq_some_iff] at he
    obtain ⟨g, rfl, he⟩ := he
    obtain ⟨w1, w2⟩ := hW g rfl
    simp only [Kafka.deliverRaw, Kafka.tryPayload] at he
    split at he
    · simp only [Option.map_some, Option.some.injEq] at he
      subst he
      refine ⟨fun o => ?_, fun c => ?_⟩
      · simp only [Kafka.finals_append, List.count_append]
        have := w1 o; omega
      · simp only [Kafka.acks_append, List.count_append]
        have := w2 c; omega
    · simp at he
  · intro k he; simp only [Option.some.injEq] at he; subst he
    simp [Accounted, rawsIn, Kafka.finals, Kafka.acks]

/-- No more acknowledgements have been given for a connection than there are raw events of it among what the sink has been given. -/
theorem Net.kafka_acks_le (utf8 : Bytes → Bool) (interval : Nat) (topic : Str) (maxBytes : Nat) (script : List (Submission → KOutcome))
    (sources j : Nat) (recv : List (Option (Event F))) (conn : Nat) :
    let r := SinkRun.steps (kafkaImpl utf8 interval) sources j
      { state := some { topicName := topic, maxMessageBytes := maxBytes, script := script }, queue := recv }
    ∀ k, r.state = some k → (Kafka.acks k.trace).count conn ≤ ((rawsIn (deliveredBy r.calls)).map (·.connectionId)).count (some conn) := by
  have raws : ∀ (d : List (Event F)) (e : Event F), rawsIn (d ++ [e]) = rawsIn d ++ rawsIn [e] := by
    intro d e; simp [rawsIn, List.filterMap_append]
  have hf : ∀ (s : Option Kafka) (d : List (Event F)), (∀ k, s = some k → Accounted k d) →
      ∀ k, (kafkaImpl (F := F) utf8 interval).flush s = some k → Accounted k d := by
    intro s d hP k he
    simp only [kafkaImpl, Option.bind_eq_some_iff] at he
    obtain ⟨g, rfl, he⟩ := he
    obtain ⟨h1, -, h3, h4⟩ := kafka_flush utf8 he
    obtain ⟨p1, p2⟩ := hP g rfl
    exact ⟨fun o => by rw [h1, h3, p1]; rfl, fun c => by rw [h1, h4, p2]; rfl⟩
  have hind := SinkRun.induction (kafkaImpl (F := F) utf8 interval) (fun s d => ∀ k, s = some k → Accounted k d)
    (fun s d => ∀ k, s = some k → Accounted k d) ?_ ?_ ?_ hf (fun s d h _ => hf s d h) sources j
    (some { topicName := topic, maxMessageBytes := maxBytes, script := script }) ?_ recv
  · intro r k hk
    have : Accounted k (deliveredBy r.calls) := by
      cases hr : r.returned with
      | false => exact hind.1 hr k hk
      | true => exact hind.2 hr k hk
    have := this.2 conn
    omega
  · intro s d t hP _ h he
    simp only [Accounted, raws]
    simpa [rawsIn, Accounted] using hP h he
  · intro s d t hP _ h he
    simp only [Accounted, raws]
    simpa [rawsIn, Accounted] using hP h he
  · intro s d t hP _ k' he
    simp only [kafkaImpl, Option.bind_eq_some_iff] at he
    obtain ⟨g, rfl, he⟩ := he
    obtain ⟨p1, p2⟩ := hP g rfl
    simp only [Kafka.deliverRaw, Kafka.tryPayload] at he
    split at he
    · simp only [Option.map_some, Option.some.injEq] at he
      subst he
      simp only [Accounted, rawsIn] at p1 p2 ⊢
      refine ⟨fun o => ?_, fun c => ?_⟩
      · have := p1 o
        simp only [Kafka.finals_append, List.filterMap_append, List.map_append, List.count_append]
        simp only [Kafka.finals, List.filterMap_cons, List.filterMap_nil, List.map_cons, List.map_nil, List.count_nil] at this ⊢
        omega
      · have := p2 c
        simp only [Kafka.acks_append, List.filterMap_append, List.map_append, List.count_append]
        simp only [Kafka.acks, List.filterMap_cons, List.filterMap_nil, List.map_cons, List.map_nil, List.count_nil] at this ⊢
        omega
    · simp at he
  · intro k he; simp only [Option.some.injEq] at he; subst he
    simp [Accounted, rawsIn, Kafka.finals, Kafka.acks]

/-- **C146 (Kafka).**  The same for a Kafka sink: of each connection (and of those without one), at least as many messages have reached a final outcome as there are
raw events among what the filters make of everything the sources had sent by `T`; and as many acknowledgements have been given.  So a synchronous publish
is answered without anything further being published. -/
theorem C146_kafka_partial (c : Config) (hd : Distinct c) (p : Setup F) (hp : SetUp c p) (ls : Nat → Label F) (hs : ∀ t, ls t ≠ .signal)
    (number : Nat → Nat) (htk : Ticks ls number)
    (first : Str) (fs : List Str) (n : Str) (hfun : Funnel c first fs n) (hfed : ∃ u, Forwards c u first) (hn : n ∈ c.sinks)
    (hb : ∀ m ∈ fs ++ [n], Busy ls m) (hpass : ∀ m ∈ fs, PassesPulses (p.filter m)) (hroom : ∀ t, ∀ m ∈ fs ++ [n], (run p ls t).lost m = [])
    (hre : ValveReopens p ls n)
    (utf8 : Bytes → Bool) (interval : Nat) (topic : Str) (maxBytes : Nat) (script : List (Submission → KOutcome))
    (hk : p.sink n = ⟨_, kafkaImpl utf8 interval, some { topicName := topic, maxMessageBytes := maxBytes, script := script }⟩) (T : Nat) :
    ∃ t, T ≤ t ∧ ∃ received out m r k, Through (fs.map p.filter) (received.map (·.2)) out ∧ FromSources c p ls first T t received ∧
      (run p ls t).nodes n = some (.sink ⟨_, kafkaImpl utf8 interval, some { topicName := topic, maxMessageBytes := maxBytes, script := script }⟩ m r) ∧
      r.state = some k ∧ (∀ o, ((rawsIn out).map (·.connectionId)).count o ≤ (Kafka.finals k.trace).count o) ∧
      ∀ c : Nat, ((rawsIn out).map (·.connectionId)).count (some c) ≤ (Kafka.acks k.trace).count c := by
  obtain ⟨t, ht, received, out, a1, a2, a3⟩ := flush_now c hd p hp ls hs number htk first fs n hfun hfed hn hb hpass hroom hre interval
    (by rw [hk]; intro st; rfl) T
  rw [hk] at a3
  obtain ⟨m, r, j, recv, b1, b2, b3, before, s, idx, after, b4, b5⟩ := a3
  obtain ⟨k, hkk⟩ := flushes_none rfl rfl b3
  refine ⟨t, ht, received, out, m, r, k, a1, a2, b1, hkk, ?_⟩
  subst b2
  obtain ⟨h1, h2⟩ := kafka_answered utf8 interval topic maxBytes script m j recv before s idx after b4 k hkk
  have hpre : (rawsIn out).map (·.connectionId) <+: (rawsIn (deliveredBy before)).map (·.connectionId) := by
    rw [← rawsIn_payload out]
    obtain ⟨x, hx⟩ := b5
    rw [← hx]
    simp only [rawsIn, List.filterMap_append, List.map_append]
    exact List.prefix_append _ _
  exact ⟨fun o => Nat.le_trans (hpre.sublist.count_le o) (h1 o), fun c => Nat.le_trans (hpre.sublist.count_le (some c)) (h2 c)⟩

/-- Flushing opens the valve of a Kafka sink whose limit is not zero, if header keys are text. -/
theorem C146_kafka_reopens (utf8 : Bytes → Bool) (hutf8 : ∀ b, utf8 b = true) (interval : Nat) (topic : Str) (maxBytes : Nat) (hmax : 0 < maxBytes)
    (script : List (Submission → KOutcome)) :
    Reopens (kafkaImpl (F := F) utf8 interval) (some { topicName := topic, maxMessageBytes := maxBytes, script := script }) := by
  have happ : ∀ (a b : List Kafka.Op) (k : Kafka), Kafka.run utf8 k (a ++ b) = (Kafka.run utf8 k a).bind fun k => Kafka.run utf8 k b := by
    intro a b
    induction a with
    | nil => intro k; rfl
    | cons op a ih =>
      intro k
      cases op with
      | deliver r => simp only [List.cons_append, Kafka.run]; cases k.deliverRaw utf8 r <;> simp [ih]
      | flush => simp only [List.cons_append, Kafka.run]; cases k.flush utf8 <;> simp [ih]
  have hvh : ∀ hs, ValidHeaders utf8 hs := fun _ x _ => hutf8 _
  have hvr : ∀ o, ValidReturn utf8 o := by
    intro o
    cases o with
    | retryable m => exact hvh _
    | _ => trivial
  have hfl : ∀ k : Kafka, ∃ k', k.flush utf8 = some k' := fun k => (C66_kafka_never_panics_partial utf8 k).2 (fun _ _ => hvr _) (fun _ _ _ => hvr _)
  have key : ∀ s, Reaches (kafkaImpl (F := F) utf8 interval) (some { topicName := topic, maxMessageBytes := maxBytes, script := script }) s →
      ∃ k ops, s = some k ∧ Kafka.run utf8 { topicName := topic, maxMessageBytes := maxBytes, script := script } ops = some k := by
    have flushed : ∀ {s : Option Kafka}, (∃ k ops, s = some k ∧
        Kafka.run utf8 { topicName := topic, maxMessageBytes := maxBytes, script := script } ops = some k) →
        ∃ k ops, (kafkaImpl (F := F) utf8 interval).flush s = some k ∧
          Kafka.run utf8 { topicName := topic, maxMessageBytes := maxBytes, script := script } ops = some k := by
      rintro s ⟨k, ops, rfl, h⟩
      obtain ⟨k', hk⟩ := hfl k
      exact ⟨k', ops ++ [.flush], by simp only [kafkaImpl, Option.bind_some, hk], by rw [happ, h]; simp [Kafka.run, hk]⟩
    intro s hs
    induction hs with
    | start => exact ⟨_, [], rfl, rfl⟩
    | deliver s m _ ih => exact ih
    | deliverLine s l _ ih => exact ih
    | deliverRaw s m _ ih =>
      obtain ⟨k, ops, rfl, h⟩ := ih
      obtain ⟨k', hk⟩ := (C66_kafka_never_panics_partial utf8 k).1 m (hvh _)
      exact ⟨k', ops ++ [.deliver m], by simp only [kafkaImpl, Option.bind_some, hk], by rw [happ, h]; simp [Kafka.run, hk]⟩
    | flush s _ ih => exact flushed ih
    | shutdown s _ ih => exact flushed ih
  intro s hs
  obtain ⟨k, ops, rfl, h⟩ := key s hs
  obtain ⟨k', hk⟩ := hfl k
  refine ⟨1, ?_⟩
  have hr : Kafka.run utf8 { topicName := topic, maxMessageBytes := maxBytes, script := script } (ops ++ [.flush]) = some k' := by
    rw [happ, h]; simp [Kafka.run, hk]
  have := (C30_valve_tracks_bytes utf8 topic maxBytes script _ _ hr).2
  have h0 : Kafka.bytesSinceFlush (ops ++ [.flush]) = 0 := by simp [Kafka.bytesSinceFlush]
  rw [h0] at this
  simp only [flushes, kafkaImpl, Option.bind_some, hk, Option.map_some, Option.getD_some]
  cases hv : k'.valveOpen with
  | true => rfl
  | false => have := this.1 hv; omega

/-! ## An example: a source with a Kafka sink and a Wavefront sink, and a timer that does not stop -/

private def acked : Config := ⟨[['k'], ['w']], [], [], [(['a'], [['k'], ['w']])]⟩

private def ackedCounter (t : Nat) : Telemetry Int := ⟨if t % 12 = 0 then ['c'] else ['d', 'd'], .sum 1, true, none, t, none, none⟩

private def ackedSetup : Setup Int where
  wiring := ⟨[(['k'], [['a']]), (['w'], [['a']])], [], [(['a'], [['k'], ['w']])], [['k'], ['w']]⟩
  filter _ := ⟨_, delayProcess, 10⟩
  sink n := if n = ['k'] then
      ⟨_, kafkaImpl (fun _ => true) 3, some { topicName := ['t'], maxMessageBytes := 10, script := [fun _ => .published] }⟩
    else ⟨_, wavefrontImpl wfExt 3 (fun i => i) (fun _ => [.fail 2, .ok, .ok]), some { state := Wavefront.State.init 1 [] none true ⟨false, false, false, false⟩ [] }⟩
  stopOrder := [0]
  joinOrder := [['k'], ['w']]

/-- A counter, one of two, a synchronous publish, a pulse, and some turns for the sinks; and so on for ever. -/
private def ackedLabels (t : Nat) : Label Int :=
  if t % 6 = 0 then .emit 0 (.telemetry (ackedCounter t)) else if t % 6 = 1 then .emit 0 (.raw ⟨5, .raw, [1, 2], none, some t⟩)
  else if t % 6 = 2 then .pulse (t / 6 + 1) else if t % 6 = 3 then .act ['k'] 0 else .act ['w'] 0

private theorem offered_emit {p : Setup F} {s : Net.State F} {i : Nat} {e x : Event F} {m : Str} (h : x ∈ offered p s (.emit i e) m) : x = e := by
  simp only [offered] at h
  split at h
  · cases h
  · split at h
    · exact (List.mem_replicate.1 h).2
    · cases h

/-- All that `C146_kafka_partial` and `C146_wavefront_partial` ask for. -/
example : Distinct acked ∧ SetUp acked ackedSetup ∧ (∀ t, ackedLabels t ≠ .signal) ∧ Ticks ackedLabels (fun t => (t + 3) / 6) ∧
    Funnel acked ['k'] [] ['k'] ∧ Funnel acked ['w'] [] ['w'] ∧ (∃ u, Forwards acked u ['k']) ∧ (∃ u, Forwards acked u ['w']) ∧
    (∀ m ∈ acked.sinks, Busy ackedLabels m ∧ ∀ t, (run ackedSetup ackedLabels t).lost m = []) ∧
    ValveReopens ackedSetup ackedLabels ['k'] ∧ ValveReopens ackedSetup ackedLabels ['w'] := by
  have hall : ∀ u n, Forwards acked u n → u = ['a'] := by
    rintro u n ⟨fs, h1, h2⟩
    simp only [acked, List.mem_append, List.mem_cons, Prod.mk.injEq, List.not_mem_nil, or_false, false_or] at h1
    exact h1.1
  have hd : Distinct acked := by decide
  have hp : SetUp acked ackedSetup := ⟨rfl, by decide, by decide, fun n _ => (C63_filters_proper 10 0 ⟨fun _ => none, fun _ => [], fun _ => []⟩ ⟨false, [], id, 0⟩
      (L := Unit) (fun _ _ q => ((), .ok q)) (fun _ => .timerFlush 0) (fun _ => rfl) (fun _ q => ⟨q, rfl⟩) ⟨(), 0, []⟩).1⟩
  have hsrc : ∀ n, HasChannel acked n → Funnel acked n [] n := fun n h => .sources h (fun u hu => by rw [hall u n hu]; decide)
  have hfw : ∀ n ∈ acked.sinks, Forwards acked ['a'] n := by
    intro n hn
    exact ⟨[['k'], ['w']], by decide, hn⟩
  refine ⟨hd, hp, ?_, ⟨rfl, ?_, ?_, ?_⟩, hsrc _ (.inl (by decide)), hsrc _ (.inl (by decide)), ⟨_, hfw _ (by decide)⟩, ⟨_, hfw _ (by decide)⟩, ?_, ?_, ?_⟩
  · intro t h; simp only [ackedLabels] at h; split at h
    · cases h
    split at h
    · cases h
    split at h
    · cases h
    split at h <;> cases h
  · intro t idx h
    simp only [ackedLabels] at h
    split at h
    · cases h
    split at h
    · cases h
    split at h
    · injection h with h; constructor <;> omega
    split at h <;> cases h
  · intro t h
    have : t % 6 ≠ 2 := by
      intro h2
      exact h (t / 6 + 1) (by simp [ackedLabels, h2])
    show (t + 1 + 3) / 6 = (t + 3) / 6
    omega
  · intro t; exact ⟨6 * t + 2, by omega, t + 1, by simp only [ackedLabels]; rw [if_neg (by omega), if_neg (by omega), if_pos (by omega)]; congr 1; omega⟩
  · intro m hm
    refine ⟨fun t => ?_, fun t => by rw [lost_settled (Nat.zero_le t) fun k _ => rfl]; rfl⟩
    have : m = ['k'] ∨ m = ['w'] := by simpa [acked] using hm
    rcases this with rfl | rfl
    · exact ⟨6 * t + 3, by omega, 0, by simp only [ackedLabels]; rw [if_neg (by omega), if_neg (by omega), if_neg (by omega), if_pos (by omega)]⟩
    · exact ⟨6 * t + 4, by omega, 0, by simp only [ackedLabels]; rw [if_neg (by omega), if_neg (by omega), if_neg (by omega), if_neg (by omega)]⟩
  · refine reopens_on hd hp ackedLabels (by decide) ?_
    exact C146_kafka_reopens (F := Int) (fun _ => true) (fun _ => rfl) 3 ['t'] 10 (by decide) [fun _ => .published]
  · refine C146_wavefront_reopens acked hd ackedSetup hp ackedLabels ['w'] (by decide) wfExt 3 (fun i => i) (fun _ => [.fail 2, .ok, .ok])
      (fun _ => ⟨[.fail 2], [], rfl⟩) 1 (by decide) [] none true ⟨false, false, false, false⟩ (fun k => by cases k <;> rfl) [] rfl (fun _ => True)
      ⟨id, fun a b _ _ => ⟨rfl, fun h => by rw [show a = b from h]⟩⟩ (fun _ _ _ _ => trivial) [ackedCounter 0, ackedCounter 6] (by decide) ?_ ?_
    · intro a ha b hb h
      simp only [List.mem_cons, List.not_mem_nil, or_false] at ha hb
      rcases ha with rfl | rfl <;> rcases hb with rfl | rfl <;> first | exact ⟨rfl, rfl⟩ | exact absurd h (by decide)
    · intro t
      induction t with
      | zero => intro x hx; cases hx
      | succ t ih =>
        intro x hx v hv
        rw [log_succ rfl] at hx
        rcases List.mem_append.1 hx with hx | hx
        · exact ih x hx v hv
        obtain ⟨e, he, rfl⟩ := List.mem_map.1 hx
        have he := arrive_mem he
        simp only at hv
        subst hv
        simp only [ackedLabels] at he
        split at he
        · rename_i h0
          have := offered_emit he
          simp only [Event.telemetry.injEq] at this
          subst this
          refine ⟨.inr ⟨1, rfl, trivial⟩, ?_⟩
          by_cases h12 : t % 12 = 0
          · exact ⟨ackedCounter 0, by simp, by simp [ackedCounter, SameSeries, h12]⟩
          · exact ⟨ackedCounter 6, by simp, by simp [ackedCounter, SameSeries, h12]⟩
        split at he
        · cases offered_emit he
        split at he
        · have := (List.mem_replicate.1 he).2; cases this
        have noact : ∀ m, Event.telemetry v ∉ offered ackedSetup (run ackedSetup ackedLabels t) (.act m 0) ['w'] := by
          intro m hm
          simp only [offered] at hm
          cases hnd : (run ackedSetup ackedLabels t).nodes m with
          | none => simp [hnd] at hm
          | some nd =>
            simp only [hnd, List.mem_flatMap, List.mem_replicate] at hm
            obtain ⟨e', h1, h2, -⟩ := hm
            rcases node_of t hnd with ⟨ups, ch, q, r, g1, rfl⟩ | ⟨ups, r, g1, rfl⟩
            · cases g1
            · simp [Node.channels] at h2
        split at he
        · exact absurd he (noact _)
        · exact absurd he (noact _)

private def ackedOut : Node Int → List Nat
  | .sink _ _ r => flushedBy r.calls
  | _ => []

/-- After some rounds both have been flushed; nobody has told the process to stop. -/
example : ((run ackedSetup ackedLabels 200).nodes ['k']).map ackedOut = some [3] ∧
    ((run ackedSetup ackedLabels 200).nodes ['w']).map ackedOut = some [3, 6, 9] := by decide +kernel

end Verif
