# Design of the semnet verification

Subject: `/repo` (mem-memov/semnet, Go). This document was written before the proofs; the *status* column
of the per-property table is refined in `MANIFEST.json` as the work proceeds.

## 1. What is modelled

Every function reachable from the public API (`graph.go`, `remark.go`, `output.go`) is transcribed to Lean,
one definition per Go function or loop, each with a comment naming file and lines
(`lean/Verif/Model/*.lean`):

| Lean module | Go code |
|---|---|
| `Model/GoStr`     | Go string semantics: `[]rune(s)`, `string(runes)`, `strings.Split/Join` on a space, `%b` of an int32 |
| `Model/Go`        | control flow: result / `error` / nil-interface panic / loop budget exhausted; the storage calls |
| `Model/Storage`   | contract of `abstract.Storage`, execution, storage failures, crash |
| `Model/Class`     | `internal/concrete/class` (all) |
| `Model/Bit`       | `internal/concrete/bit` (all) |
| `Model/Character` | `internal/concrete/character` |
| `Model/Word`      | `internal/concrete/word` |
| `Model/Phrase`    | `internal/concrete/phrase` |
| `Model/Detail`    | `internal/concrete/detail` |
| `Model/Story`     | `internal/concrete/story`, `internal/concrete/fact` |
| `Model/Concurrent`| several processes on one storage, interleaved storage call by storage call |
| `Model/Remark`    | `internal/concrete/remark`, `graph.go`, `remark.go`, `output.go` |
| `Model/Path`      | the loops of `path.reverse` (C65); the other modules use `List.reverse`, which C65 shows to be the same |
| `Model/Unused`    | functions of the layers above that nothing calls (C53) |

### Simplifications (also noted at the definitions)

* `uint` identifiers are `Nat`: no overflow of the identifier space.
* A Go function is a tree of storage calls (`Go α`). Its end is a value, an error, a panic (only nil
  dereference can occur) or `spin` (an unbounded `for` loop used up its budget `fuel`). Theorems either show
  that `spin` is impossible for an explicit budget or hold for every budget.
* Error values keep the site, not the message text.
* Struct fields that are fixed collaborators (repositories, storages) are dropped, except where the code
  leaves one nil: `fact.Aggregate.factStorage`, and the storage of a `bit.Entity` that has not been assigned yet.
* Concurrency: any number of processes interleave whole storage calls on one storage. Goroutines that share one
  `Graph` (C49) share its bit layer. Its three fields are read and assigned one at a time, in the order of the
  code (`bit/layer.go:25-147`); any number of steps of other goroutines may come in between. Up to C59 reading and
  assigning are sequentially consistent, and an entity (a flag, two identifiers and the storage) is assigned at once.
  C60 and C61 drop both: a read may see, of each word of the layer, any assignment made so far, or none
  (`Spec/Weak`; this is more than Go allows).
* Getters, constructors and functions that only pass a call on (`PointToX` is one `Connect`, `GetTargetX` one read, `paths.create`,
  the methods of the aggregates) are inlined where they are called.
* Running out of identifiers is a failing `Create`, which the theorems about storage failures cover.
* `internal/mock` and the tests are not modelled.

### The storage

The implementation (`github.com/mem-memov/clew`) is not in the repository. The model is the contract visible
from the interface and from the repository's own tests: fresh increasing identifiers starting at 1, edges,
one reference per node, errors on unknown identifiers. What is open is a parameter (`Cfg`), and theorems
quantify over it:

* `arrow`: how many identifiers an added edge consumes (`bit/repository_test.go` shows 1);
* `zero`: whether identifier 0 is a live node (`graph_test.go` passes only if it is);
* `dup`: what `Connect` does with an existing edge. The positive theorems assume `ignore`
  (`word/element.go:86` repeats a `Connect`, so multi-character words rely on it); C32 refutes the others;
* `ord`: the listing order of `ReadSources`/`ReadTargets`, any permutation, which may depend on the call and on all that is
  stored (C51 and C52 need a storage that gives the same answer to the same question, `Spec.Steady`; C57 does not). C54, C55 and C57 let `arrow` and `ord`
  differ from one storage call to the next.

Storage failures: every storage call can succeed, fail without effect, or fail after taking effect. Crash:
the process stops after any number of storage calls; reopening is a fresh bit layer on the same storage.

## 2. How properties are proved

*Specification side* (`lean/Verif/Spec`): API histories (`Call` lists on the handles returned so far) and an
abstract state that only remembers, per handle, the expected object, property and story opener. Text
expectation: `asText` (word-wise replacement of undecodable bytes), which is the identity on the UTF-8
bytes of any Lean `String`. `Spec/Alphabet` defines prefix-free alphabets, `Spec/Machine` an abstract machine that
knows texts only, `Spec/Lexicon` and `Spec/Scribe` its extension to arbitrary texts, where words can be refused,
`Spec/Concurrent` interleaved processes, `Spec/Race` any number of processes and goroutines that write at the same time, `Spec/Cold` those that store new text, `Spec/Stray` calls on handles fetched by any identifier, `Spec/Maimed` storages whose initialization was interrupted, `Spec/Weak` goroutines that share a bit layer without
sequential consistency.

*Proof side* (`lean/Verif/Proof`): a program logic `wp` for `Go` programs with ghost tags per node; one
invariant (`Inv`) over storage + tags, one monotonicity relation (`Mono`) saying what later steps can never
change (set references, the single out-edges/in-edges that spell text, tags). Every model function gets a
lemma: from `Inv`, under every failure pattern, each single storage step keeps `Inv`/`Mono`; results on
success are described by entity predicates (`CharEnt`, `WordEnt`, `PhraseEnt`, `DetailEnt`, ...) that `Mono`
preserves. Soundness lemmas transfer `wp` to `run` (faults), `crashAfter` and interleaving.

Where to find what in `Proof`: `Inv` (invariant), `Stable` (monotonicity), `Wp`, `Rules`, `Step`, `Write` (program logic
and single storage calls), `Read` (read-back), `BitNew`, `CharWrite`, `WordWrite`, `PhraseWrite`, `DetailWrite`,
`FactWrite`, `RemarkWrite` (one per layer), `Sound` (from the logic to runs, faults, crashes), `Hist`, `Start`, `Api`,
`Calls`, `Create` (histories and creating calls), `Utf8`, `Runes`, `Strings`, `Text` (Go strings), `Quiet` (queries do
not write), `Reopen`, `Chars` (sharing of characters), `Alphabet`, `Apart`, `OneLetter` (prefix-free alphabets; phrases
are never shared there; duplicate policies), `Loose` (facts without a story), `Fuel` (loop budgets are immaterial),
`Finish`, `Errs` (when calls fail), `Concurrent`, `Uses` (readers and taking turns), `Machine` (abstract machine), `Codes`, `Facts`, `LexRel` (the lexicon
against the stored characters, words and phrases), `Scribe` (abstract machine for arbitrary texts), `Race*` (several writers at
the same time).

The limit record `Lim` restricts what texts a history may contain (alphabet, text length, one-letter words), so that one
invariant serves the general case, prefix-free alphabets and storages with other duplicate policies.

*Property theorems* are in `lean/Verif/Props`, apart from helper lemmas. Statements that are false of the code
are refuted with a concrete witness evaluated by the kernel (`decide`-style), and the strongest true part is
proved for all inputs with the suffix `_partial`.

### Per property

| id | model / proof, or reason why not |
|---|---|
| C01 | `wp` of `createStory` + read-back of `RemarkEnt`; all histories by induction |
| C02 | `RemarkEnt` is `Mono`-stable; induction over histories |
| C03 | `addRemarkToFact` lemma; re-insertion uses `runesOf (stringOf rs) = rs` and split/join inverse |
| C04 | `addFactToStory` lemma (storages with node 0; without it the call always fails, C26) |
| C05 | as C04 |
| C06 | reference chain of a remark is `Mono`-stable |
| C07 | tags distinguish old from fresh nodes |
| C08 | `getFirstFact` lemma + read-back + C10 |
| C09 | story links are `Mono`-stable |
| C10 | position nodes of remarks have no targets in `Inv` |
| C11 | symbolic execution up to the error in any `Inv` state |
| C12 | refuted by witness; partial: no panic when all words are non-empty and word starts are free (C22) |
| C13 | every failing path ends in `Inv` and `Mono` (part of every lemma) |
| C14 | stepwise `Inv`/`Mono` in `wp`, soundness for crash points |
| C15 | stepwise under failures; storages without node 0: all histories. With node 0: witness of wrong success, partial |
| C16 | refuted by witnesses (crash in detail window, crash in bit initialisation); partial: which crashes are harmless |
| C17 | path argument on the model: no write operation is reached once node 1 and a bit exist |
| C18 | `wp` with interference: reader facts are `Mono`-stable; interleaving semantics |
| C19 | arithmetic of `%b` and of the shift loop, trie lemma |
| C20 | UTF-8 decoder/encoder lemmas |
| C21 | sibling uniqueness in `Inv` |
| C22 | refuted by witness; partial: prefix-free word starts, all histories |
| C23 | dead word starts are absorbing |
| C24 | bit layer reconstruction lemma, all listing orders |
| C25 | part of `Inv` |
| C26 | node 0 not live: symbolic execution of each call |
| C27 | case split on node 0, targets of node 0 in `Inv` |
| C28 | refuted by witness; also the exact (global) behaviour is proved |
| C29 | `spin` excluded in every lemma |
| C30 | class nodes are out-degree-critical in `Inv` |
| C31 | refuted by witness |
| C32 | refuted by witnesses for both other policies |
| C33 | refuted by witness schedules |
| C34 | refuted by witness; exactly which nodes are accepted: `Sound.accepted`, by the position of the node in its entity |
| C35 | uniqueness clause of the clean-state predicate; witness under a dropped error |
| C36 | `ev_firstLoose`, `ev_storyLoose`: facts whose story is node 0 |
| C37 | `ev_nextStory`: case split on the targets of node 0 |
| C38 | simulation: `machine_step`, by induction over histories; errors and panics from `Sound.creates` |
| C39 | `reply_exact` + `links_T0` |
| C40 | targets of node 0 never decrease; `Sound.child_refused` |
| C41 | `LexRel` relates storage and lexicon; each layer's lemma carries it along; `scribe_runs` by induction |
| C42 | `Wholes` in the clean-state predicate: entities whole, every node owned; references run backwards uniquely |
| C43 | `Proof/Growth.lean`: a cost for each program (`Adds`), independent of the ghost state; `ends_both` combines it with the program logic where the object is read from the storage |
| C44 | equality of programs: a word is used through its runes only, a first word is never compared as bytes; then C41 and C29. Witness evaluated in the kernel |
| C45 | direct execution (`Proof/Layer.lean`) on any storage that is in order, without the ghost state |
| C46 | histories extended by direct calls of the text layers (`Spec/Parts.lean`); the invariant and the write lemmas of each layer, `Proof/Parts.lean` |
| C47 | counting interpreter (`storageCalls`, `Spec/Cost.lean`); exact cost of each read by induction on the stored entity, the one-time initialisation of the bits being carried as a potential (`Takes`, `Proof/Cost.lean`) |
| C48 | rely/guarantee logic over the same programs: every node has an owner, the process that created it; a process relies on the others leaving its unfinished nodes alone and on finished structures staying (`RMono`, `Env`), and guarantees the same (`Guar`, `Proof/RaceWp.lean`). The invariant `RI` (`Proof/RaceInv.lean`) is weaker than `Inv`: texts may be stored twice, details may be half built. One lemma per API function (`Proof/RaceRemark.lean`, `RaceAsk.lean`), then induction over the moves of the crowd (`Spec/Race.lean`, `Proof/RaceSys.lean`) |
| C49 | the same logic: `rwpk` keeps what a thread knows of the shared layer (`Know`: which fields are right for good) and lets the layer be anything that agrees with it at every reading (`MemAt`); an assignment must be right, and `isInitialized` may be set only by a thread that knows both entities; induction over moves that are single reads or assignments of a field or single storage calls. C48 is the case of one thread per process |
| C50 | the postcondition of the race logic excludes `spin` (`Race.Post`), so no loop uses up its budget; a call is a well-founded tree, so induction over it shows that a thread which keeps stepping returns (`Proof/RaceLive.lean`); simulation between runs with different budgets (`Alike`) |
| C51 | the race invariant is parametrised by a state since which no text has been added: `Frozen` (`Proof/RaceInv.lean`) keeps its references, and the edges of its text nodes; every write of the race logic proves that it respects this. A program that only reads at the start then behaves in the race exactly as it would at the start (`Same`, `Proof/RaceWarm.lean`, one lemma per function of the text layers), so looking up a familiar pair (`Spec/Warm.lean`) yields the detail found at the start; the rest of the call is proved with the logic of C48, with failure excluded |
| C52 | the race invariant of C48 covers storages with node 0 too: node 0 is a node of a kind of its own (`Tag.zero`) to which facts and story nodes may be connected, and a remark is at a story or `Loose` (its fact hangs on node 0 only, `Proof/RaceInv.lean`). What is lost with node 0 is the initialisation of half-built entities, which reads node 0 as if it were there; calls that need no new text never come to it (`Proof/RaceWarm.lean`, `crowd_calm`). `CreateChildStory` is left out, since what it does depends on what others hang on node 0, and `GetStory` of loose remarks, which strays through node 0 |
| C53 | sources of words and phrases: what an edge into a word or phrase means is part of `Inv` (`EdgeOK`); that the edge exists follows from the program text alone, since no program loses edges (`Proof/Unused.lean`) |
| C54 | `wp` lets every storage call be answered by its own `Cfg` (`Cfg.Like`); soundness for runs with a sequence of configurations (`Spec/Moody`, `Proof/Moody.lean`), then histories and the scribe of C41 as before |
| C55 | `rwp`, the logic of the races, lets every storage call be answered by its own `Cfg` too (`RC.Like`), also while no text may be added (C57); every move of the crowd carries its `Cfg` (`Spec/MoodyRace`, `Proof/RaceMoody.lean`) |
| C56 | the scribe's lexicon only grows (`LexGrown`); a refused phrase is `Lost` in the lexicon afterwards, which stays so (`Proof/Final.lean`); the scribe of C41 and C54 carries this to the program. Witnesses that acceptance is not final and that a refusal must have happened |
| C57 | the races of C51 and C52 with a `Cfg` per move (`Spec/MoodyWarm`, `Proof/RaceMoodyWarm.lean`); a second logic (`Det`, `Proof/Known.lean`) for programs that only read and whose result is determined by the lexicon shows that the lookup of a pair ends the same way in every order |
| C58 | the exact result of a lookup (`Known`, `Proof/Found.lean`), given what is on its way: the write lemmas now also say by which classes and words a created phrase is reached from its first character (`Led`, `Proof/PhraseWrite.lean`), and histories keep this for every logged remark (`Tied`, `LexT`). Conversely a found phrase was stored by the scribe's lexicon |
| C59 | over a free alphabet nothing is ever found again: the word of a first character is always created anew (the defect behind C31), so a goroutine only ever walks along nodes of its own. `Lim.solo` turns on a further clause of the race invariant: targets of text nodes are kept by everybody but their owner (`tkeep`), and the first bit has its one character (`RI.hd`, which NUL, the only code that begins with 0, would break). With it the text layers are proved with failure excluded (`Proof/RaceSolo.lean`); `Mode.sure` now knows the goroutine, so failures of the others are allowed (`Proof/RaceCold.lean`, `Spec/Cold`) |
| C60 | a goroutine that reads `isInitialized` as true assigns nothing, and a layer without assignments looks the same to everybody; simulation by the interleaved run of C49, step by step (`Proof/RaceWeak.lean`: `Settled`, `tight_moves`; `tight_acts` with synchronization). That a successful call has initialized the layer is read off the program trees (`Proof/Fills.lean`) |
| C61 | refuted by witnesses for torn entities, for `isInitialized` seen first, and for storages with a node 0. Partial: the logic of C49 with `RC.weak`, in which a read knows nothing but that an entity, if not the right one, is the unassigned one, whose identifiers are 0 and whose storage is nil; node 0 does not exist, so every use of it fails before it writes |
| C62 | rely and guarantee (`Vain`): every program keeps the storage `Maimed` and the layers uninitialized whatever the others do, `bit.layer.initialize` fails, and so does everything after it; witnesses for the ways there (crash, failing storage call, race); that every first call can be cut so: the storage calls of a calm first call are followed to the first bit |
| C63 | refuted by a witness for storages with a node 0 (success, wrong texts). Partial: the same logic; both bits of every layer have the character 0, which does not exist and which no edge leads to; the first call reaches such a storage by a walk through `createLayer` (`Proof/CharlessReach.lean`) |
| C64 | the same logic with the invariant that the class node is gone and its identifier past, which every program keeps; witnesses for the ways there |
| C65 | loop invariant: after `i` rounds the outer `i` elements are swapped, `List.set` on both ends |
| C66 | refuted by witnesses for class nodes and for storages with a node 0. Partial: by the invariant every node is the 1st to 4th of a whole entity, so references end (`Runs`), and reading on meets the missing node 0; for AddRemarkToFact a case distinction on the role of the second node shows that no text can be found (`Found`, `Proof/Stray.lean`) |
| C67 | the first half of the call is that of CreateStory (`Wr.half`) and ends with a remark that says its texts; the second half meets the missing node 0 without writing (`Errs`). For all calls: the edge to the class node is never removed, and every member of a class is a whole entity (`Proof/Orphan.lean`) |
| C68 | no call on a returned remark connects an old remark's fact node to anything (`Spares`): what is above the details is unchanged while texts are stored (`Keep`), all later connections start at new nodes; so the node stays without targets and `GetTargetFact` fails (`Proof/Astray.lean`). Calls on the remark left behind are asked at the end of the history; they are no part of it |
| C69 | the call writes what `half` writes and then fails reading, so its storage satisfies the invariant and is quiescent; the theorems for calm continuations start from there (`Proof/AstrayCall.lean`). One such call is covered; calls on the remarks that it leaves in turn are not |

## 3. Trusted base

* The Lean 4 kernel (v4.33.0). No project axioms, no `sorry`, no `native_decide`, no `bv_decide`, no
  `implemented_by`. Each theorem depends at most on `propext`, `Classical.choice`, `Quot.sound`.
* The transcription of the Go code by hand (mitigated by: one definition per function with line references,
  the repository's own tests run inside the model in `lean/Verif/Tests.lean`; wrong programs tried against the
  theorems in `seeded/LOG.jsonl`).
* The storage contract above in place of `clew`.
* Go semantics of `[]rune`, `string([]rune)`, `strings.Split/Join`, `%b`, int32 shift/add.

Not modelled: memory exhaustion, identifier overflow, data races, message texts, performance,
`internal/mock`, tests.
