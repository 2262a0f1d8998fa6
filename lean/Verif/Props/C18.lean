import Verif.Proof.Concurrent
import Verif.Props.Sample
/- C18: reading while another process writes. -/
namespace Semnet.Props
open Spec Sample

/-- After any calm history that has created a remark, a process performs the calls `cs`, and other processes are started
    at any moment and read; `ts` is the interleaving of their storage calls.  A process that was given the identifier of
    a remark the writer had created before the process was started gets the expected answers: these if it has ended,
    and these if it goes on. -/
theorem C18_reader_beside_writer {cfg : Cfg} {fuel : Nat} {es : List Event} (h : Calm cfg fuel es)
    (hl : (after cfg fuel es).log ≠ []) {cs : List Call} (ht : ∀ c ∈ cs, ∀ t ∈ c.texts, t.length < fuel)
    {ts : List Turn} (hc : ∀ t ∈ ts, t.Calm) {y : System} (hy : y = (System.start (after cfg fuel es) cs).turns cfg fuel ts)
    {rd : Reader} (hrd : rd ∈ y.readers) {e : Entry} (he : e ∈ rd.log)
    (hid : Remark.getIdentifier e.handle = rd.identifier) {as : List Answer}
    (ha : e.answers rd.log rd.asked = some as) :
    rd.result cfg y.store = .ok as ∧ ∀ o, rd.proc.out = some o → o = .ok as := by
  subst hy
  obtain ⟨e0, he0⟩ := List.exists_mem_of_ne_nil _ hl
  obtain ⟨σ, hs, hcl⟩ := h.holds he0
  obtain ⟨σ1, h1⟩ := (SysInv.start (F := false) hs hcl hl fun c hc t htt => TextOK.std (ht c hc t htt)).turns
    h.budget.fits (by simp) ts fun t htt => .inl (hc t htt)
  have := h1.result hrd e he hid as ha
  exact ⟨this, fun o ho => (out_result ho).symm.trans this⟩

/-- The same beside a writer that meets storage failures, dies and is started again (storages without node 0). -/
theorem C18_reader_beside_failing_writer {cfg : Cfg} (hz : cfg.zero = false) {fuel : Nat} {es : List Event}
    (h : Calm cfg fuel es) (hl : (after cfg fuel es).log ≠ []) {cs : List Call}
    (ht : ∀ c ∈ cs, ∀ t ∈ c.texts, t.length < fuel) {ts : List Turn} {y : System}
    (hy : y = (System.start (after cfg fuel es) cs).turns cfg fuel ts)
    {rd : Reader} (hrd : rd ∈ y.readers) {e : Entry} (he : e ∈ rd.log)
    (hid : Remark.getIdentifier e.handle = rd.identifier) {as : List Answer}
    (ha : e.answers rd.log rd.asked = some as) :
    rd.result cfg y.store = .ok as ∧ ∀ o, rd.proc.out = some o → o = .ok as := by
  subst hy
  obtain ⟨e0, he0⟩ := List.exists_mem_of_ne_nil _ hl
  obtain ⟨σ, hs, hcl⟩ := h.holds he0
  obtain ⟨σ1, h1⟩ := (SysInv.start (F := true) hs hcl hl fun c hc t htt => TextOK.std (ht c hc t htt)).turns
    h.budget.fits (fun _ => hz) ts fun t htt => .inr ⟨rfl, hz⟩
  have := h1.result hrd e he hid as ha
  exact ⟨this, fun o ho => (out_result ho).symm.trans this⟩

/-- Readers (with any identifiers and questions) do not disturb the writer: when it is done, storage, memory and log are
    as if it had been alone. -/
theorem C18_writer_undisturbed {cfg : Cfg} {fuel : Nat} {es : List Event} (h : Calm cfg fuel es)
    (hl : (after cfg fuel es).log ≠ []) {cs : List Call} (ht : ∀ c ∈ cs, ∀ t ∈ c.texts, t.length < fuel)
    {ts : List Turn} (hc : ∀ t ∈ ts, t.Calm) {y : System} (hy : y = (System.start (after cfg fuel es) cs).turns cfg fuel ts)
    (hd : y.done = true) : y.state = after cfg fuel (es ++ cs.map fun c => .call c Go.noFault) := by
  subst hy
  obtain ⟨e0, he0⟩ := List.exists_mem_of_ne_nil _ hl
  obtain ⟨σ, hs, hcl⟩ := h.holds he0
  have h1 := SysInv.start (F := false) hs hcl hl fun c hc t htt => TextOK.std (ht c hc t htt)
  rw [← final_done (cfg := cfg) (fuel := fuel) hd, SysInv.final h.budget.fits ts h1 hc, after_append]
  rfl

/-- In no interleaving the writer starves: some number of its turns completes its calls. -/
theorem C18_writer_gets_done {cfg : Cfg} {fuel : Nat} (y : System) :
    ∃ n, (y.turns cfg fuel (List.replicate n (.write .ok))).done = true := write_done y

/-! A writer creates another story while a reader, started before, reads the second remark of the history and another,
    started in between, the first. -/

def readEverything : List Query := [.getObjectAndProperty, .getStory]

def interleaving : List Turn :=
  [.spawn (stA.log[1]?.map (·.handle.cls) |>.getD 0) readEverything]
    ++ (List.replicate 40 [Turn.write .ok, .read 0]).flatten
    ++ [.spawn (stA.log[0]?.map (·.handle.cls) |>.getD 0) readEverything]
    ++ (List.replicate 30 [Turn.write .ok, .read 0, .read 1]).flatten

example : let y := (System.start stA [.createStory (bytes "é") (bytes "d")]).turns cfgA fuel interleaving
    (y.readers.map fun rd => rd.proc.out.isNone) = [true, true] ∧ y.store ≠ stA.world.store ∧ y.cur.isSome = true ∧
    y.readers[0]?.map (·.result cfgA y.store) = some (.ok [.pair (bytes "ab") (bytes "d a"), .text (bytes "ab c ")]) ∧
    y.readers[1]?.map (·.result cfgA y.store) = some (.ok [.pair (bytes "ab") (bytes "c"), .text (bytes "ab c ")]) := by
  decide +kernel

end Semnet.Props
