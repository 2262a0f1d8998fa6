{"id": "C01", "title": "CreateStory round-trips its text", "statement": "If CreateStory(object, property) returns a remark without error and the strings are valid UTF-8, then GetObjectAndProperty on that remark returns exactly (object, property), with no error.", "quantifier": "every pair of byte strings, every prior fault-free history of API calls, every order in which the storage lists sources and targets, every id-consumption rate of Connect", "why_tests_cant": "The two texts are cut into words, characters and bits and shared with every text stored before; whether the walk back through the shared trie yields the same bytes depends on the whole history and on the input, both unbounded.", "anchors": ["graph.go: Graph.CreateStory, Graph.GetRemark", "internal/concrete/remark/aggregate.go: Aggregate.GetObjectAndProperty", "internal/concrete/phrase/repository.go: Repository.Provide", "internal/concrete/word/repository.go: Repository.Provide", "internal/concrete/character/repository.go: Repository.Provide"]}
{"id": "C02", "title": "Stored text never changes", "statement": "Once a creating call (CreateStory, AddRemarkToFact, AddFactToStory, CreateChildStory) has returned a remark, GetObjectAndProperty on it returns the same pair after any further API calls, including calls that fail or panic and including reopening the graph.", "quantifier": "every fault-free history of any length, every position in it, every remark created in it", "why_tests_cant": "Later texts extend and reuse the very nodes that spell earlier texts; a test can only try a few later histories.", "anchors": ["graph.go: Graph.CreateStory, Graph.GetRemark", "internal/concrete/remark/aggregate.go: AddRemarkToFact, AddFactToStory, CreateChildStory, GetObjectAndProperty"]}
{"id": "C03", "title": "AddRemarkToFact keeps the object and stores the new property", "statement": "If r.AddRemarkToFact(property) succeeds, the new remark's object equals r's object and its property equals the given property (valid UTF-8); this composes along any chain of AddRemarkToFact.", "quantifier": "every remark produced in every fault-free history, every property string", "why_tests_cant": "The object is re-read from the graph and re-inserted as text; equality relies on the re-insertion reproducing the text for every history.", "anchors": ["internal/concrete/remark/aggregate.go: Aggregate.AddRemarkToFact", "internal/concrete/detail/aggregate.go: GetObjectAndProperty"]}
{"id": "C04", "title": "AddFactToStory stores its text", "statement": "If r.AddFactToStory(object, property) returns a remark, GetObjectAndProperty on it returns (object, property) for valid UTF-8, then and forever.", "quantifier": "every remark of every fault-free history, every pair of strings", "why_tests_cant": "Same trie sharing as C01; additionally the call edits shared nodes through wrong identifiers, so non-interference must hold for all histories.", "anchors": ["internal/concrete/remark/aggregate.go: Aggregate.AddFactToStory", "internal/concrete/fact/repository.go: CreateNextFact"]}
{"id": "C05", "title": "CreateChildStory stores its text", "statement": "If r.CreateChildStory(object, property) returns a remark, GetObjectAndProperty on it returns (object, property) for valid UTF-8, then and forever.", "quantifier": "every remark of every fault-free history, every pair of strings", "why_tests_cant": "Same as C04.", "anchors": ["internal/concrete/remark/aggregate.go: Aggregate.CreateChildStory", "internal/concrete/fact/repository.go: CreateChildStoryFact"]}
{"id": "C06", "title": "GetRemark inverts GetIdentifier", "statement": "For every remark r returned by a creating call, GetRemark(r.GetIdentifier()) succeeds and returns the same remark, at any later time and in any later process on the same storage.", "quantifier": "every remark of every fault-free history, every later point of the history, before and after reopening", "why_tests_cant": "Needs that nothing later overwrites the reference chain; only an invariant over all histories shows that.", "anchors": ["graph.go: Graph.CreateStory, Graph.GetRemark", "internal/concrete/remark/storage.go: ReadEntityByClass"]}
{"id": "C07", "title": "Remark identifiers are unique", "statement": "Two different successful creating calls never return remarks with the same identifier, and an identifier is never 0 nor one of the class identifiers 1..8.", "quantifier": "every fault-free history, every pair of creating calls in it", "why_tests_cant": "Uniqueness over unbounded histories and any id-consumption rate of Connect.", "anchors": ["internal/concrete/remark/aggregate.go: GetIdentifier", "internal/concrete/class/node/remark.go: Create"]}
{"id": "C08", "title": "Output.GetStory prints the story's first remark", "statement": "For a remark created by CreateStory(object, property), and for every remark added to its fact by AddRemarkToFact (transitively), Output.GetStory returns \"object property \" and nothing else.", "quantifier": "every fault-free history, every such remark, every later point", "why_tests_cant": "Quantifies over all histories; also shows that remarks added later are never printed, which no finite test can establish as a rule.", "anchors": ["output.go: Output.GetStory", "internal/concrete/remark/aggregate.go: GetFirstFact, HasNextRemark"]}
{"id": "C09", "title": "GetFirstFact leads to the remark that opened the story", "statement": "For a remark created by CreateStory or CreateChildStory, or added to such a fact by AddRemarkToFact, GetFirstFact returns the remark that opened the story (same identifier).", "quantifier": "every fault-free history, every such remark, every later point", "why_tests_cant": "Pointer structure must be preserved by all later histories.", "anchors": ["internal/concrete/remark/aggregate.go: GetFirstFact", "internal/concrete/fact/aggregate.go: ToFirstFact"]}
{"id": "C10", "title": "Remarks of a fact cannot be enumerated", "statement": "HasNextRemark returns false and GetNextRemark returns an error for every remark ever returned by a creating call, whatever else happens: AddRemarkToFact never links the new remark behind the previous one.", "quantifier": "every fault-free history, every remark in it", "why_tests_cant": "A universally negative statement: no test can show that no history makes HasNextRemark true.", "anchors": ["internal/concrete/remark/aggregate.go: HasNextRemark, GetNextRemark, AddRemarkToFact", "internal/concrete/remark/entity.go: PointToPosition"]}
{"id": "C11", "title": "Empty leading word is rejected with an error", "statement": "CreateStory, AddFactToStory and CreateChildStory with an object that is empty or starts with a space, and AddRemarkToFact with such a property, return an error and do not panic. (False of the code: AddRemarkToFact with such a property can panic.)", "quantifier": "every reachable state, every such string", "why_tests_cant": "The branch is reached after part of the remark has been built in an arbitrary state.", "anchors": ["internal/concrete/word/paths.go: collect", "internal/concrete/phrase/repository.go: Provide"]}
{"id": "C12", "title": "Calls do not panic", "statement": "A creating call given any pair of strings either succeeds or returns an error; it never panics. (False of the code: an empty second or later word makes it panic.)", "quantifier": "every string, every reachable state", "why_tests_cant": "Universal over strings and states; the code drops errors in loops, so whether a nil interface is dereferenced depends on the state.", "anchors": ["internal/concrete/phrase/repository.go: Provide lines 42-48", "internal/concrete/word/repository.go: Provide lines 46-52", "internal/concrete/character/repository.go: Provide lines 42-48"]}
{"id": "C13", "title": "Failed calls do no harm", "statement": "A creating call that returns an error or panics leaves every earlier remark readable with unchanged text, identifier and first fact.", "quantifier": "every fault-free history containing any number of failing and panicking calls", "why_tests_cant": "A failing call leaves partial data behind; that it is harmless must hold for every state and every failure point.", "anchors": ["internal/concrete/remark/aggregate.go: AddRemarkToFact, AddFactToStory, CreateChildStory", "internal/concrete/remark/repository.go: CreateFirstUserRemark"]}
{"id": "C14", "title": "A crash loses nothing that was stored", "statement": "If the process dies after any storage call of any API call, then after reopening, every remark returned by an earlier call still has its text, identifier and first fact.", "quantifier": "every fault-free history that has completed one creating call, every next call, every crash point, every storage-call failure before the crash", "why_tests_cant": "The number of crash points and states is unbounded.", "anchors": ["internal/abstract/storage.go: Storage", "internal/concrete/remark/aggregate.go: AddRemarkToFact, AddFactToStory, CreateChildStory", "internal/concrete/detail/storage.go: CreateEntity"]}
{"id": "C15", "title": "Storage failures never lead to a wrong success", "statement": "If storage calls may fail at any moment (with or without having taken effect) and a creating call nevertheless returns a remark, that remark reads back with the given text. (False of the code on storages that have a node 0.)", "quantifier": "every history, every assignment of failures to storage calls (after initialisation), every later point", "why_tests_cant": "Errors are dropped at five places in the code; whether a dropped error can turn into wrong data requires all failure patterns in all states.", "anchors": ["internal/concrete/detail/factory.go: ProvideEntity line 33", "internal/concrete/character/elements.go: ProvideFirstElement line 45", "internal/concrete/fact/aggregate.go: lines 61,73,155"]}
{"id": "C16", "title": "Work can continue after a crash", "statement": "After a crash and reopening, any well-formed creating call that would have succeeded before succeeds again. (False of the code: a crash inside CreateStory can leave a half-built object/property pair or half-built bit layer.)", "quantifier": "every crash point of every call", "why_tests_cant": "A single unlucky crash point out of dozens is enough; tests do not enumerate them.", "anchors": ["internal/concrete/detail/storage.go: CreateEntity lines 38-61", "internal/concrete/bit/layer.go: initialize"]}
{"id": "C17", "title": "Queries never write", "statement": "On an initialised storage, GetRemark, GetObjectAndProperty, HasNext*/GetNext*, GetFirstFact and Output.GetStory leave the storage exactly as it was, for any handle or identifier, valid or not, and under any storage failures.", "quantifier": "every storage content, every handle, every failure pattern", "why_tests_cant": "Every query shares code with creating calls (bit layer, class repository); only an all-paths argument excludes writes.", "anchors": ["internal/concrete/remark/aggregate.go", "output.go: GetStory", "internal/concrete/bit/layer.go: initialize"]}
{"id": "C18", "title": "Readers are not disturbed by a concurrent writer", "statement": "While one process performs creating calls, another process reading a remark created earlier obtains its exact text for every interleaving of the storage calls of the two.", "quantifier": "every interleaving, every history before, every sequence of writer calls, initialised or fresh reader process", "why_tests_cant": "Schedules are unbounded in number.", "anchors": ["internal/concrete/remark/aggregate.go: GetObjectAndProperty", "internal/abstract/storage.go: Storage"]}
{"id": "C19", "title": "Every non-negative rune is stored exactly; negative runes are rejected", "statement": "For every int32 r >= 0 the character layer, given r, yields a character whose extraction is r; for every r < 0 it returns an error and stores nothing.", "quantifier": "every int32 value, every reachable state", "why_tests_cant": "2^31 inputs times all states of the shared binary trie.", "anchors": ["internal/concrete/character/repository.go: Provide", "internal/concrete/character/aggragate.go: Extract", "internal/concrete/character/paths.go: collect"]}
{"id": "C20", "title": "Invalid UTF-8 is replaced, never corrupts neighbours", "statement": "For arbitrary bytes the text read back is the input with each undecodable byte replaced by U+FFFD, word by word; valid UTF-8 is returned unchanged.", "quantifier": "every byte string", "why_tests_cant": "Infinitely many malformed strings; the conversion is split over three layers.", "anchors": ["internal/concrete/word/paths.go: collect", "internal/concrete/word/path.go: toString", "internal/concrete/phrase/paths.go: collect"]}
{"id": "C21", "title": "Characters are shared", "statement": "Storing the same rune again reuses the existing character: providing r twice yields the same character node and the second time nothing is written.", "quantifier": "every rune, every reachable state between the two calls", "why_tests_cant": "Requires that the trie never contains two siblings for the same bit in any reachable state.", "anchors": ["internal/concrete/character/element.go: ProvideNextElement", "internal/concrete/character/factory.go: ProvideHeadEntity"]}
{"id": "C22", "title": "Well-formed text is accepted", "statement": "CreateStory succeeds for every object and property whose words are non-empty. (False of the code in general. True whenever no word starts with a character whose binary code is a proper prefix of the code of a character in use, e.g. when every character has the same bit length.)", "quantifier": "every history and every input over such an alphabet", "why_tests_cant": "Acceptance depends on the whole history through the shape of the binary trie.", "anchors": ["internal/concrete/character/entity.go: HasTargetWord line 105", "internal/concrete/word/factory.go: ProvideHeadEntity"]}
{"id": "C23", "title": "A character can become unusable as a word start, permanently", "statement": "Once a word start has been refused because of its character, every later creating call whose object starts with that character fails, whatever happens in between.", "quantifier": "every fault-free continuation, every string starting with the character", "why_tests_cant": "Universal over all futures.", "anchors": ["internal/concrete/character/entity.go: HasTargetWord", "internal/concrete/word/factory.go: ProvideHeadEntity"]}
{"id": "C24", "title": "Reopening is invisible", "statement": "Opening a new Graph on a storage with stored remarks answers every query on every remark as the old Graph did, and neither opening nor querying writes.", "quantifier": "every fault-free history, every remark", "why_tests_cant": "The in-memory bit layer must be reconstructed identically from every reachable storage and for every listing order.", "anchors": ["internal/concrete/bit/layer.go: initialize", "internal/concrete/class/repository.go: ProvideEntity"]}
{"id": "C25", "title": "Initialisation happens once", "statement": "After any fault-free history that starts on an empty storage with CreateStory, nodes 1..8 are the class nodes chained in order, and there are at most two bit nodes, with two different character nodes; no later call adds another.", "quantifier": "every fault-free history", "why_tests_cant": "The initialisation code runs on every call; idempotence is needed in every reachable state.", "anchors": ["internal/concrete/class/repository.go: ProvideEntity", "internal/concrete/bit/layer.go: initialize"]}
{"id": "C26", "title": "Navigation between facts and stories needs a node 0", "statement": "On a storage without a node 0, AddFactToStory, CreateChildStory, HasNextFact, GetNextFact, HasNextStory and GetNextStory fail for every remark ever returned by a creating call.", "quantifier": "every fault-free history, every remark, every string", "why_tests_cant": "Universally negative.", "anchors": ["internal/concrete/remark/aggregate.go: lines 64,74,142,152,297,347", "internal/concrete/fact/repository.go: FetchByRemark, CreateNextFact, CreateChildStoryFact"]}
{"id": "C27", "title": "GetNextFact never succeeds", "statement": "GetNextFact returns an error (it does not panic) for every remark ever returned by a creating call, on every storage.", "quantifier": "every fault-free history, every remark, storages with and without node 0", "why_tests_cant": "Universally negative.", "anchors": ["internal/concrete/remark/aggregate.go: GetNextFact, AddFactToStory", "internal/concrete/fact/aggregate.go: ToNextFact"]}
{"id": "C28", "title": "Stories do not influence each other", "statement": "HasNextFact of a remark is not affected by AddFactToStory on a remark of another story. (False of the code on a storage with a node 0: HasNextFact has the same answer for all remarks of all stories.)", "quantifier": "every history, every pair of remarks", "why_tests_cant": "Needs all pairs of stories in all histories.", "anchors": ["internal/concrete/remark/aggregate.go: HasNextFact line 64, AddFactToStory line 297"]}
{"id": "C29", "title": "Every call terminates", "statement": "Every API call on a remark from a creating call finishes: its loops make at most as many iterations as the longest stored text has bits, characters or words.", "quantifier": "every history, every failure pattern (on storages without node 0), every input", "why_tests_cant": "Loops follow pointers in the storage; absence of cycles is a global property of all reachable states.", "anchors": ["internal/concrete/character/aggragate.go: Extract", "internal/concrete/word/aggregate.go: Extract", "internal/concrete/phrase/aggregate.go: Extract", "internal/concrete/fact/repository.go: CreateChildStoryFact", "output.go: GetStory"]}
{"id": "C30", "title": "Entities are members of the right class", "statement": "The identifier of every remark returned by a creating call is connected to the remark class node and to nothing else, at every later point.", "quantifier": "every fault-free history, every remark", "why_tests_cant": "Needs an invariant over all histories.", "anchors": ["internal/concrete/class/node/remark.go: Is, Create"]}
{"id": "C31", "title": "Equal text is shared", "statement": "Storing the same word or phrase again creates no new word or phrase. (False of the code: CreateStory twice with the same one-letter object creates a second word.)", "quantifier": "every history", "why_tests_cant": "The statement is universal; the refutation exhibits a reachable state.", "anchors": ["internal/concrete/word/factory.go: ProvideHeadEntity", "internal/concrete/character/entity.go: HasTargetWord"]}
{"id": "C32", "title": "Correctness does not depend on how Connect treats duplicates", "statement": "C01 holds whether Connect ignores, duplicates or refuses an already existing edge. (False of the code: with duplicating storages words of two or more characters cannot be read back; with refusing storages they cannot be stored.)", "quantifier": "every storage behaviour", "why_tests_cant": "Depends on a behaviour of the storage the interface does not specify.", "anchors": ["internal/concrete/word/element.go: ProvideNextElement line 86", "internal/concrete/word/factory.go: CreateTailEntity line 86"]}
{"id": "C33", "title": "Two processes may write concurrently", "statement": "Two processes performing creating calls at the same time on one storage both end up with readable remarks and a usable storage. (False of the code.)", "quantifier": "every interleaving", "why_tests_cant": "Schedules.", "anchors": ["internal/concrete/bit/layer.go: initialize", "internal/concrete/phrase/factory.go: ProvideHeadEntity"]}
{"id": "C34", "title": "GetRemark only accepts remarks", "statement": "GetRemark returns an error for an identifier that was not returned by GetIdentifier of a remark. (False of the code.)", "quantifier": "every identifier", "why_tests_cant": "Universal over identifiers and histories.", "anchors": ["internal/concrete/remark/repository.go: GetRemark"]}
{"id": "C35", "title": "An object/property pair is stored once", "statement": "Calls never fail with 'phrases have too many common details' in fault-free operation, because a pair of phrases never gets a second detail. (Under storage failures it can: a dropped error makes a duplicate.)", "quantifier": "every fault-free history", "why_tests_cant": "Uniqueness over all reachable states.", "anchors": ["internal/concrete/detail/factory.go: ProvideEntity"]}
{"id": "C36", "title": "Facts added by AddFactToStory belong to no story", "statement": "For every remark returned by AddFactToStory (and every remark later added to such a fact), at any later time, GetStory returns an error, and GetFirstFact returns an error or something that no creating call ever returned - although the call was asked to add the fact to an existing story.", "quantifier": "every fault-free history and continuation, every remark without a story", "why_tests_cant": "Negative claim over all reachable states; a test sees one history.", "anchors": ["internal/concrete/fact/repository.go: CreateNextFact", "internal/concrete/remark/aggregate.go: AddFactToStory, GetFirstFact", "output.go: GetStory"]}
{"id": "C37", "title": "GetNextStory never reaches a story", "statement": "GetNextStory of any remark returned by a creating call returns, at any later time, an error or a remark that no creating call ever returned (on storages with a node 0 it can 'succeed' with four class nodes); HasNextStory is the same answer for all remarks and equals HasNextFact.", "quantifier": "every fault-free history, every logged remark", "why_tests_cant": "Negative claim over all reachable states.", "anchors": ["internal/concrete/remark/aggregate.go: HasNextStory, GetNextStory", "internal/concrete/fact/aggregate.go: HasNextStory, ToNextStory"]}
{"id": "C38", "title": "Over a prefix-free alphabet the API is a small abstract machine", "statement": "There is an abstract machine whose state is the list of remarks (two texts and a story opener each) and one number, which knows nothing of nodes and edges, such that for every fault-free history over an alphabet in which no word start's binary code is a proper prefix of another character's code: the same remarks are created in the same order, each creating call ends as the machine says (remark, error or panic), and each query is answered as the machine says.", "quantifier": "every prefix-free alphabet, every fault-free history over it, every call and query", "why_tests_cant": "Equivalence of two systems over all histories.", "anchors": ["graph.go", "remark.go", "output.go", "internal/concrete/**"]}
{"id": "C39", "title": "Query answers are determined by the log and one number", "statement": "In every fault-free history, over any texts, each of the nine queries on each remark ever returned answers exactly what the list of returned remarks and the number of links in the shared fact chain say; it depends on nothing else and never panics.", "quantifier": "every fault-free history, every remark, every query", "why_tests_cant": "Exactness over all reachable states.", "anchors": ["internal/concrete/remark/aggregate.go", "internal/concrete/fact/aggregate.go", "output.go: GetStory"]}
{"id": "C40", "title": "CreateChildStory stops working for ever", "statement": "Once AddFactToStory has returned two facts (or one fact, and CreateChildStory one remark after it), CreateChildStory never returns a remark again, for any remark of any story, any texts, and after any further fault-free calls.", "quantifier": "every fault-free history with two added facts and every continuation", "why_tests_cant": "A claim about all continuations.", "anchors": ["internal/concrete/fact/aggregate.go: CreateChildStory, ToNextStory", "internal/concrete/remark/aggregate.go: CreateChildStory, AddFactToStory"]}
{"id": "C41", "title": "Over arbitrary texts the API is an abstract machine with a lexicon", "statement": "There is an abstract machine whose state is the list of remarks (two texts and a story opener each), one number, and a lexicon (the characters seen, the first characters of words entered, the beginnings of phrases entered), which knows nothing of nodes, edges and references, such that for every fault-free history with valid UTF-8 texts: the same remarks are created in the same order, each creating call ends exactly as the machine says (remark, error or panic), and each query is answered as the machine says. Hence the outcome does not depend on how the storage numbers nodes and orders edges.", "quantifier": "every storage that ignores repeated edges, every fault-free history of calls with valid UTF-8 texts, every next call and query", "why_tests_cant": "Equivalence of two systems over all histories and all texts; which words are refused depends on everything entered before.", "anchors": ["graph.go", "remark.go", "output.go", "internal/concrete/character/*.go", "internal/concrete/word/*.go", "internal/concrete/phrase/*.go"]}
{"id": "C42", "title": "The catalogue is complete: every node belongs to exactly one whole entity", "statement": "After any fault-free history (also one in which calls returned errors or panicked on bad texts), the nodes of the storage are exactly: node 0 if there is one, the eight class nodes, and, without overlap, the nodes of the entities connected to the class nodes: two per bit, three per detail, four per character, word, phrase, remark, fact and story. A member of a class is connected to that class node only, Is recognises it for that class and no other, and every entity is found, the same, by each of its nodes with each of the ReadEntityBy… functions. So no fault-free call leaves a node behind that belongs to nothing, or an entity half built.", "quantifier": "every storage that ignores repeated edges, every fault-free history over any texts, every node, every class", "why_tests_cant": "A partition of all nodes of all reachable storages, including those left by failed calls.", "anchors": ["internal/concrete/*/storage.go: CreateEntity, ReadEntityBy*", "internal/concrete/class/node/*.go: Create, Is", "internal/concrete/class/repository.go: ProvideEntity"]}
{"id": "C43", "title": "A call adds a number of records linear in the length of its texts", "statement": "Counting nodes, edges and references: one call adds at most 60 records and 171 for each byte of its object and property; queries add none. This holds on any storage that has its class nodes and bits, whatever else is in it (corrupt data included), for any remark the call is given, whatever storage calls fail and wherever the process dies; for AddRemarkToFact, whose object is read from the storage, it holds in all histories of the API. In total n calls with texts of at most B bytes leave at most 24 + n(60 + 684 B) records. Conversely every creating call, also one that returns an error or panics, leaves at least four nodes.", "quantifier": "every storage and configuration, every call and remark, all patterns of failures, every crash point; every fault-free history; every history with failures after a fault-free beginning", "why_tests_cant": "A resource bound over all storages, all texts and all failure patterns.", "anchors": ["internal/concrete/*/storage.go: CreateEntity", "internal/concrete/*/factory.go", "internal/concrete/word/element.go: ProvideNextElement", "internal/concrete/remark/aggregate.go", "internal/concrete/remark/repository.go", "internal/concrete/bit/layer.go"]}
{"id": "C44", "title": "For any bytes, the remarks made do not depend on the order in which the storage lists edges", "statement": "Two storages that agree on having a node 0 but list edges in different orders and number nodes differently give the same remarks for the same fault-free history, whatever bytes the texts contain. (True if the bytes that are not UTF-8 occur in first words only, where they act exactly as U+FFFD. False in general: the search for an existing phrase compares raw bytes with stored text, so such a word in a later position gets a second phrase with equal text, and which of the two is found next depends on the order of edges; then the same later call succeeds on one storage and fails on the other.)", "quantifier": "every pair of storages that ignore repeated edges, every fault-free history over arbitrary byte strings", "why_tests_cant": "Quantifies over pairs of storages with arbitrary edge orders and over all byte strings; the in-memory storage of the tests has one order.", "anchors": ["internal/concrete/phrase/aggregate.go", "internal/concrete/phrase/repository.go", "internal/concrete/phrase/element.go", "internal/concrete/word/repository.go"]}
{"id": "C45", "title": "The fact layer on its own keeps stories together", "statement": "Given the identifier of an existing fact, fact.Repository.CreateNextFact adds a fact to that fact's story (ToNextFact leads to it, ToFirstFact leads back from it), and CreateChildStoryFact makes a story whose parent is that fact's story (HasParentStory, ToParentStory). (False, for every fact: both take the story node of the fact for a node of the story itself. On a storage without node 0 both always fail; with a node 0, ToFirstFact of the new fact succeeds with a fact made of node 0, HasParentStory of a child story says whether node 0 had targets, and ToParentStory of a new child story always fails. So AddFactToStory and CreateChildStory would not be repaired by passing the right identifier in the remark layer, where node 0 is passed now. CreateFirstStoryFact does all it should.)", "quantifier": "every storage that has the class nodes and is in order (whatever else is in it), every whole fact, every edge order and policy for repeated edges; every fact of every fault-free history", "why_tests_cant": "The functions are reached from the API with node 0 only; the claim is about every storage and every fact.", "anchors": ["internal/concrete/fact/repository.go: CreateFirstStoryFact, CreateNextFact, CreateChildStoryFact", "internal/concrete/fact/aggregate.go: ToNextFact, ToFirstFact, HasNextStory, HasParentStory, ToParentStory", "internal/concrete/story/storage.go", "internal/concrete/story/entity.go"]}
{"id": "C46", "title": "Each text layer round-trips on its own", "statement": "In any mixture of API calls and direct calls of Provide of the character, word, phrase and detail repositories on one storage, everything a layer returned keeps yielding the text it was made from (undecodable bytes replaced by U+FFFD): Extract / GetObjectAndProperty of the returned aggregate, and of the aggregate fetched again by the node it offers to the layer above. The remarks made through the API in the same mixture stay readable. The character layer accepts every int32 from 0 on in every such state.", "quantifier": "every storage whose Connect ignores existing edges (with or without node 0, every edge order), every fault-free sequence of uses, every text shorter than the loop budget, every int32 rune; words given directly to the word layer contain no space", "why_tests_cant": "The repository tests of the layers provide a handful of texts on a fresh storage and extract at once (several of them return before comparing); no test mixes layers, or extracts after later writes by other layers.", "anchors": ["internal/concrete/character/repository.go: Provide, Fetch", "internal/concrete/word/repository.go: Provide, Fetch", "internal/concrete/phrase/repository.go: Provide, Fetch", "internal/concrete/detail/repository.go: Provide, Fetch", "internal/concrete/detail/aggregate.go: GetObjectAndProperty"]}
{"id": "C47", "title": "Reading back costs what the text costs, however much is stored", "statement": "The number of storage calls of a query on a remark depends on the text asked for only. GetObjectAndProperty makes exactly 5 (1 + n) storage calls, n being the number of words, characters and binary digits of code points in object and property; GetRemark makes 3, HasNextRemark 1, GetFirstFact 14, GetStory 15 more than reading the remark that opened the story. The first query of a process that needs the bits makes 4 more. So a remark is read with at most 19 + 85 storage calls per byte, in any storage.", "quantifier": "every storage whose Connect ignores existing edges (with or without node 0, every edge order), every fault-free history, every remark made in it; on storages without node 0 also after any storage failures and crashes", "why_tests_cant": "A test can count the calls for a few remarks in a small storage; that reading never wanders into the rest of an arbitrarily large storage, or into what failed calls left behind, is a statement about all histories.", "anchors": ["internal/concrete/remark/aggregate.go: GetObjectAndProperty, GetFirstFact, HasNextRemark", "internal/concrete/detail/aggregate.go: GetObjectAndProperty", "internal/concrete/phrase/aggregate.go: Extract", "internal/concrete/word/aggregate.go: Extract", "internal/concrete/character/aggragate.go: Extract", "internal/concrete/bit/layer.go: initialize", "output.go: GetStory"]}
{"id": "C48", "title": "Racing writers: whatever a call returns is right and stays right", "statement": "Any number of processes perform API calls of their own choice at the same time on one storage that has no node 0 and already holds a remark. Their storage calls interleave in any way, any storage call may fail with or without effect, and processes may die in the middle of calls and be started anew. Calls may then fail (C33), but every remark that a call returned to anyone reads back exactly as passed, for a new process and for all others, and belongs to the story it was made for; no two returned remarks share an identifier; every answer a query returned is the expected one; a reader whose own storage calls do not fail is given the expected answers; remarks from before the race stay readable. (On a storage with a node 0 this is false: a race can return a remark that cannot be read.)", "quantifier": "every number of processes, every choice of their calls, every interleaving, every pattern of storage failures and deaths, every history before", "why_tests_cant": "The number of processes, schedules, failure patterns and histories is unbounded.", "anchors": ["internal/abstract/storage.go: Storage", "internal/concrete/detail/repository.go: Provide", "internal/concrete/phrase/factory.go: ProvideHeadEntity", "internal/concrete/remark/repository.go: CreateStory", "internal/concrete/remark/aggregate.go: AddRemarkToFact"]}
{"id": "C49", "title": "Goroutines sharing one Graph are safe once a first remark exists", "statement": "The bit layer of a Graph is filled lazily and without a lock. Suppose the storage has no node 0 and already holds a remark. Any number of goroutines, spread over any number of processes, perform API calls of their own choice at the same time; the goroutines of a process share its Graph. Reads and writes of the bit layer and storage calls interleave in any way, storage calls may fail with or without effect, processes may die and be started anew, so that several goroutines may find the layer empty and fill it at once. Then all of C48 still holds: every remark that a call returned reads back exactly as passed, in every process; identifiers are distinct; answers are right; readers succeed; nothing from before is lost. (Before the first call has returned it is false: two goroutines making the first calls can both succeed and leave four bits, after which no new process can read anything.)", "quantifier": "every number of goroutines and processes, every distribution of goroutines to processes, every choice of calls, every interleaving down to single memory accesses, every pattern of failures and deaths, every history before", "why_tests_cant": "Schedules, failure patterns and histories are unbounded; a race detector only sees the schedules that happen.", "anchors": ["internal/concrete/bit/layer.go: layer.initialize", "internal/concrete/bit/repository.go: Provide, Fetch", "graph.go: NewGraph", "internal/abstract/storage.go: Storage"]}
{"id": "C50", "title": "Racing calls are wait-free", "statement": "In the setting of C49 (goroutines of any number of processes on a storage that has no node 0 and holds a remark), consider an endless run. A goroutine that is in the middle of an API call, whose process does not die and which keeps being scheduled, returns from that call after finitely many of its own steps, whatever the other goroutines do, including stopping for ever in the middle of a call, and however storage calls fail. It returns a result, an error or a panic; no loop of it runs for ever. The loop budget of the model is immaterial: a larger one gives the same storage, remarks and answers.", "quantifier": "every endless schedule, every number of goroutines and processes, every choice of calls, every pattern of failures and deaths of other processes, every history before", "why_tests_cant": "Termination under all schedules is a statement about infinitely long runs.", "anchors": ["internal/concrete/character/aggragate.go: Extract", "internal/concrete/word/aggregate.go: Extract", "internal/concrete/phrase/aggregate.go: Extract", "output.go: GetStory", "internal/concrete/bit/layer.go: layer.initialize"]}
{"id": "C51", "title": "Racing calls that need no new text all succeed", "statement": "In the setting of C49 (goroutines of any number of processes on a storage that has no node 0 and holds a remark), suppose that storage calls do not fail, that the storage lists the same nodes in the same order whenever it is asked the same question, and that the goroutines create stories and remarks only about pairs of texts which were stored and can be found before they start; besides they ask questions and get remarks by identifier, and processes may die in the middle of calls. Then every call that has a result succeeds, however the goroutines interleave: CreateStory and AddRemarkToFact return a remark, questions are given the expected answer; there is no error and no panic. Together with C50: a goroutine that keeps being scheduled, and whose process does not die, returns from such a call with its result. (If some goroutine adds new text this is false: CreateStory of a pair that was found before can fail although no storage call does.)", "quantifier": "every number of goroutines and processes, every choice of such calls, every interleaving down to single memory accesses, finite or endless, every pattern of deaths, every history before", "why_tests_cant": "The schedules and histories are unbounded; a stress test that sees no failure has not seen all interleavings.", "anchors": ["graph.go: CreateStory", "internal/concrete/remark/aggregate.go: AddRemarkToFact", "internal/concrete/detail/repository.go: Provide", "internal/concrete/phrase/repository.go: Provide", "internal/concrete/word/repository.go: Provide", "internal/concrete/character/repository.go: Provide"]}
{"id": "C52", "title": "With a node 0 too, racing calls that need no new text are safe and succeed", "statement": "On any storage, with or without a node 0, that lists the same nodes in the same order whenever it is asked the same question, has been written without storage failures and holds a remark: let any number of goroutines of any number of processes race, storage calls not failing, processes dying in the middle of calls. The goroutines call CreateStory, AddRemarkToFact and AddFactToStory (the latter on storages with a node 0, where it can succeed), all about pairs of texts which were stored and can be found before they start; they get remarks by identifier and ask questions, except the story of a remark that no story owns. Then every remark that was ever returned reads back with its object and property, in every process and a new one, and nothing from before is lost; no two remarks have the same identifier; every answer given is the expected one; every call that has a result returns it, without error or panic, and no loop runs for ever; a goroutine that keeps being scheduled, and whose process does not die, returns with its result. (If somebody adds text this is false, see C48: on a storage with a node 0 a race can then leave a remark that cannot be read.)", "quantifier": "every storage with or without node 0, every fault-free history before, every number of goroutines and processes, every choice of such calls, every interleaving down to single memory accesses, finite or endless, every pattern of deaths", "why_tests_cant": "The schedules and histories are unbounded, and AddFactToStory in all threads writes to the same shared node 0, so that harmful interleavings, if there were any, would be rare ones.", "anchors": ["graph.go: CreateStory", "internal/concrete/remark/aggregate.go: AddRemarkToFact", "internal/concrete/remark/aggregate.go: AddFactToStory", "internal/concrete/remark/repository.go: CreateFirstUserRemark", "output.go: GetStory"]}
{"id": "C53", "title": "What the functions that nothing calls would do", "statement": "Some functions are never called in the repository. In every state reached by any mixture of API calls and direct use of the text layers (no storage failures): GetSourceCharacter of a word of one character returns the node of that character, whose text is that character, and gives an error for every longer word; GetSourceWord of a phrase of one word returns the node of that word, whose text is that word, and gives an error for every longer phrase. In every state reached by API calls: GetSourceTree of a stored story never returns a parent story: it fails, or on a storage with a node 0 it may return 0, which is no story; CreateNextStoryFact of a remark returns neither a fact nor an error and creates nothing. On every storage ExtendObject and ExtendProperty return neither a detail nor an error, and MarkWord and Mark add one edge or fail without effect.", "quantifier": "every mixture of API calls and direct uses of the text layers, every text, every storage (listing order, numbering, node 0 or not)", "why_tests_cant": "Nothing calls these functions, so no test of the library reaches them; what they return depends on all that was stored before, in unboundedly many states.", "anchors": ["internal/concrete/word/entity.go: GetSourceCharacter", "internal/concrete/phrase/entity.go: GetSourceWord", "internal/concrete/story/entity.go: GetSourceTree", "internal/concrete/remark/entity.go: CreateNextStoryFact", "internal/concrete/detail/aggregate.go: ExtendObject", "internal/concrete/character/entity.go: MarkWord", "internal/concrete/phrase/entity.go: Mark"]}
{"id": "C54", "title": "The storage may answer every single call in another order", "statement": "Let the storage list the same edges in a different order each time it is asked, and consume a different number of identifiers at each Connect, as storages built on Go maps do; only its treatment of existing edges and the presence of a node 0 are fixed. In every fault-free history every remark returned by a call reads back as promised (text, first remark of the story, printed story, GetRemark of its identifier), and the identifiers are pairwise different. On storages without node 0 this stays so under storage failures and crashes. For texts of valid characters the same calls succeed, fail and panic, the remarks made are the same, and each of the nine queries on each remark is answered the same, whatever the orders. With orders that never change this is the ordinary semantics of the other properties.", "quantifier": "every history, every text, every sequence of listing orders and numberings (one per storage call), every failure pattern and crash point for the stormy part", "why_tests_cant": "The order of each answer is chosen anew at every storage call; a test sees one of the exponentially many sequences, and with an in-memory mock always the same one.", "anchors": ["internal/abstract/storage.go: ReadSources, ReadTargets, Connect", "internal/concrete/bit/repository.go", "internal/concrete/class/node/bit.go: ReadSources", "internal/concrete/phrase/entity.go", "internal/concrete/word/entity.go", "graph.go: CreateStory, GetRemark"]}
{"id": "C55", "title": "Racing goroutines on a storage that answers every call in another order", "statement": "Any number of goroutines in any number of processes perform API calls at the same time on a storage without node 0 that holds a remark; their storage calls interleave in any way, any of them may fail with or without effect, processes may die and be started anew. Besides, the storage lists the same edges in a different order each time it is asked and consumes a different number of identifiers at each Connect, during the history before, during the race and when the results are read. Every remark that any goroutine was ever given reads back as promised, the identifiers are pairwise different, every answer given is the expected one, readers whose storage calls do not fail are answered as expected, and nothing stored before is lost. A goroutine that keeps running returns from its call whatever the others and the storage do, and never because a loop used up its budget; a larger budget changes nothing. With orders that never change this is C49 and C50.", "quantifier": "every history and every set of calls, every interleaving, every failure pattern and death, every sequence of listing orders and numberings (one per storage call), every endless schedule", "why_tests_cant": "Both the interleaving and the order of every single answer are chosen anew; no stress test covers the product of the two, and the run in which a goroutine never returns is endless.", "anchors": ["internal/abstract/storage.go: ReadSources, ReadTargets, Connect", "internal/concrete/bit/layer.go:25-147", "internal/concrete/character/paths.go", "internal/concrete/word/paths.go", "internal/concrete/phrase/paths.go", "internal/concrete/remark/repository.go", "graph.go: CreateStory, GetRemark"]}
{"id": "C56", "title": "A refused call is refused for ever", "statement": "In a fault-free history with texts of characters, a creating call (CreateStory, AddRemarkToFact, AddFactToStory, CreateChildStory) returned an error or panicked. Then the same call with the same arguments never returns a remark again, however often it is retried, whatever other calls are made in between, also after reopening the storage in a new process, and in whatever order the storage lists edges at each of its calls. Two things are not true: a call that has just succeeded may be refused when it is repeated at once, and a call that would be refused now may be accepted later if it is not made now.", "quantifier": "every history before the refused call and every history after it, every creating call and all texts of characters, every sequence of listing orders and numberings", "why_tests_cant": "That something never succeeds again is a statement about all continuations of a history, of any length.", "anchors": ["graph.go: CreateStory, GetRemark", "internal/concrete/character/paths.go", "internal/concrete/character/entity.go: HasTargetWord", "internal/concrete/word/paths.go", "internal/concrete/phrase/paths.go", "internal/concrete/detail/repository.go", "internal/concrete/remark/repository.go"]}
{"id": "C57", "title": "Racing calls that need no new text, in changing listing orders", "statement": "The storage holds a remark; if it has no node 0, calls may have failed and processes died since then. Any number of goroutines in any number of processes create stories, remarks and (with node 0) facts about pairs of texts that were found before they started, and ask questions; their storage calls interleave in any way and processes may die in the middle of calls. The storage lists the same edges in a different order at every call and consumes a different number of identifiers at each Connect: during the history, during the race and when the results are read. Then every remark ever given reads back as promised, identifiers are pairwise different, every answer is the expected one, readers are answered as expected, nothing stored before is lost, every call whose handle exists succeeds when it is left alone, no call ever uses up its loop budget, and in an endless run a goroutine that keeps running returns from its call with success. Which pairs are found does not depend on the order either: after a fault-free history with texts of characters, looking up a pair ends the same way in every order, with the same identifiers, so a pair that is found once is found always. C51 and C52 are the case of orders that never change, where it is enough that a pair is found in that order.", "quantifier": "every history, every set of calls about pairs that are found, every interleaving and death of processes, every sequence of listing orders and numberings (one per storage call), every endless schedule", "why_tests_cant": "The interleaving and the order of every single answer are chosen anew; success of every call is claimed for all of them, and runs may be endless.", "anchors": ["graph.go: CreateStory", "internal/abstract/storage.go: ReadSources, ReadTargets, Connect", "internal/concrete/bit/layer.go:25-147", "internal/concrete/character/paths.go", "internal/concrete/word/paths.go", "internal/concrete/phrase/paths.go", "internal/concrete/detail/repository.go", "internal/concrete/remark/repository.go"]}
{"id": "C58", "title": "Which pairs of object and property are found", "statement": "The record of who called what decides which pairs are stored and found, so that no text is entered again. After a fault-free history with texts of characters, on a storage that lists edges in a different order at every call, a pair somebody was given a remark about is found if and only if the first characters of both texts are looked up, that is, exactly one bit continues the code of the character to codes of other characters used so far and the character begins exactly one stored word. No pair at all is found unless both texts are looked up and stored as phrases. A pair that was found and is not found any more is never found again. A race whose calls use only such pairs needs no new text, so C57 applies to it: in particular every call that has a result succeeds. It is not true that a remark makes its pair findable: right after the first story of (\"07 8\", \"1\") the pair is not found, it is found after the story of (\"a\", \"b\"), and is lost again after the story of (\"c\", \"7\").", "quantifier": "every history of calls, every pair of texts, every sequence of listing orders and numberings; every race about such pairs", "why_tests_cant": "The claim is an equivalence between a condition on the recorded calls and the outcome of a lookup in every reachable storage, whatever the order of every single answer.", "anchors": ["internal/concrete/character/paths.go", "internal/concrete/word/paths.go", "internal/concrete/phrase/paths.go", "internal/concrete/detail/repository.go", "graph.go: CreateStory"]}
{"id": "C59", "title": "Racing calls that store new text succeed", "statement": "If all texts, those of the history and those of the race, are over an alphabet in which the binary code of a character that begins a word is not the beginning of the code of another character in use (for example the letters, whose codes all have seven digits), and NUL is not used, then racing goroutines may store any new texts, also the same ones at the same time. A goroutine whose own storage calls do not fail and whose call has a result (and is not given a text with an empty word) comes to the end of the call with that result: a creating call with a new remark, a question with the expected answer; no error, no panic, no endless loop, whatever the other goroutines do, whatever storage calls of theirs fail, whichever processes die, and however the storage orders its lists and numbers its nodes. If it keeps taking steps it returns. All remarks given to anyone read back as promised and are distinct, and answers are right; on storages with a node 0 this holds if no storage call fails and CreateChildStory and GetStory of a fact without story are not called. It is not true if NUL is in the alphabet, nor (C51) without a condition on the characters.", "quantifier": "every free alphabet without NUL, every history over it (with failures and crashes if there is no node 0), any number of processes and goroutines, every interleaving, every pattern of failures and deaths of the others, every sequence of listing orders and numberings, finite and endless runs", "why_tests_cant": "The interleavings of text-storing calls are far too many to try, and almost all of those that break (see C51, C59_nul_false) need another goroutine to act within a window of a few storage calls; that there is no such window for these alphabets is a statement about all schedules.", "anchors": ["internal/concrete/character/paths.go", "internal/concrete/word/paths.go", "internal/concrete/phrase/paths.go", "internal/concrete/detail/repository.go", "graph.go: CreateStory", "remark.go: AddRemarkToFact"]}
{"id": "C60", "title": "A shared Graph is safe under Go's memory model once its bit layer is initialized", "statement": "The bit layer reads and assigns its three fields without synchronization. Under Go's memory model a goroutine may therefore miss assignments that other goroutines made, see them in any order, and see only some words of an entity. If every process whose goroutines miss assignments initialized its bit layer before it started them and is not started anew, or, more generally, if it synchronized its goroutines at a moment when the layer was initialized and all its calls had returned, and has not died since, then everything happens exactly as if all assignments were seen at once: storage, log, answers and calls in progress are those of the interleaved run, and nothing is ever assigned to the layer again. A creating call that succeeds has initialized the layer, and so has a question for texts or story that is answered, on every storage and whatever storage calls failed. So on storages without a node 0 that hold a remark every remark given to any goroutine reads back as promised, and a reader that asks about a logged remark and is left alone is answered as expected, as in C49.", "quantifier": "every history, any number of processes and goroutines, every interleaving, failure and death of processes, every choice of what each single read sees of each word of the layer", "why_tests_cant": "What a read without synchronization may see depends on compiler and processor; a test sees what one machine happens to do, and the race detector reports a race only when it occurs.", "anchors": ["internal/concrete/bit/layer.go:25-147", "internal/concrete/bit/entity.go", "graph.go: NewGraph, CreateStory, GetRemark"]}
{"id": "C61", "title": "A shared Graph that is not yet initialized is safe under Go's memory model", "statement": "Goroutines that start to use a newly opened Graph at the same time get right answers, store readable remarks, and do not panic, whatever their unsynchronized reads of the bit layer see. This is false of the code: a goroutine that sees isInitialized and the one entity without its value is answered with two NUL characters instead of \"0\" and \"1\"; one that sees isInitialized before the entities panics in CreateStory (nil storage) or is told that a stored remark cannot be read; and on a storage with a node 0 CreateStory can succeed and store a remark that can never be read. What holds: if entities are seen whole and the storage has no node 0, then calls may fail or panic, but every remark ever given to a goroutine reads back as promised in a new process, identifiers of remarks are pairwise different, and every answer that is given is the expected one.", "quantifier": "every history, any number of processes and goroutines, every interleaving, failure and death of processes, every choice of what each single read sees of the layer (entities whole in the positive part)", "why_tests_cant": "The failures need a read between two assignments that the processor has reordered or torn, in the first milliseconds of a process; that nothing else goes wrong is a statement about all interleavings and all that reads may see.", "anchors": ["internal/concrete/bit/layer.go:25-147", "internal/concrete/bit/entity.go", "graph.go: CreateStory, GetRemark"]}
{"id": "C62", "title": "A storage with a wrong number of bit nodes is unusable for ever", "statement": "If any number of nodes other than none and two is connected to the class node of bits, then whatever threads and processes do afterwards, no remark is ever created, no question about texts (GetObjectAndProperty, GetStory) is ever answered, no process ever initializes its bit layer, and the nodes connected to the class node stay the same: nothing in the API repairs the storage. Such a storage is left by a crash in the very first API call (every first call that would have succeeded, on every configuration of the storage, can be interrupted so), by one failing storage call in it, and by two processes that write to an empty storage at the same time.", "quantifier": "every storage with that defect (whatever else is in it), every configuration of the storage, any number of threads and processes, every interleaving, failing storage calls, deaths and restarts", "why_tests_cant": "That no sequence of calls, retries, restarts and interleavings ever recovers is a statement about all executions.", "anchors": ["internal/concrete/bit/layer.go:28-143", "internal/concrete/class/node/bit.go:17-49", "internal/concrete/character/repository.go:30-52"]}
{"id": "C63", "title": "Bits that were left without characters never yield wrong texts", "statement": "If the first call was interrupted after making the two bit nodes and before making their characters, later calls do not store or answer wrong texts. This is false of the code on storages with a node 0: the missing references are read as 0, both bits get the character 0, CreateStory reports success, and \"ab\", \"c d\" read back as NUL NUL and NUL space NUL. What holds on storages without a node 0: whatever threads and processes do afterwards, no remark is ever created, no question about texts is ever answered, and the bits never get characters. Every first call that succeeds on such a storage can be interrupted into this defect: there is a storage call after which the death of the process leaves it.", "quantifier": "every storage with that defect (whatever else is in it), every configuration of the storage without a node 0, any number of threads and processes, every interleaving, failing storage calls, deaths and restarts", "why_tests_cant": "The defect needs a crash between two particular storage calls of the first call ever made; that nothing ever repairs it and nothing wrong is answered is a statement about all executions.", "anchors": ["internal/concrete/bit/layer.go:28-143", "internal/concrete/bit/repository.go:39-55", "internal/concrete/character/elements.go:33-54", "internal/concrete/character/factory.go:24-64"]}
{"id": "C64", "title": "If the identifier of a class node is lost, no remark can ever be created", "statement": "ProvideEntity takes the existence of node 1 as a sign that all eight class nodes exist. If the class node of remarks, facts or stories does not exist and its identifier has been given to something else, then from a storage without remarks no remark is ever created, whatever threads and processes do. A crash in the very first call while the class nodes are made leads there: later calls fail, one node at a time, until the identifier is spent on an edge. On a storage whose edges take no identifiers the calls begin to succeed, but the first remark created cannot be read.", "quantifier": "every storage with that defect (whatever else is in it), every configuration of the storage, any number of threads and processes, every interleaving, failing storage calls, deaths and restarts", "why_tests_cant": "That no sequence of calls, retries, restarts and interleavings ever recovers is a statement about all executions; the way there takes a crash at one of eleven storage calls of the first call ever made.", "anchors": ["internal/concrete/class/repository.go:36-167", "internal/concrete/class/node/fact.go", "internal/concrete/class/node/story.go", "internal/concrete/remark/repository.go:35-88"]}
{"id": "C65", "title": "The reversal loops of paths reverse", "statement": "The loop that swaps the elements of a path from both ends (path.reverse of characters, words and phrases) ends after at most as many rounds as there are elements, never indexes out of range, and leaves the elements in the opposite order; doing it twice restores the path.", "quantifier": "every path of any length and any elements", "why_tests_cant": "Paths have any length; tests try a few lengths, while an error in the swapping loop may show for even or odd lengths only.", "anchors": ["internal/concrete/character/path.go:5-14", "internal/concrete/word/path.go:5-14", "internal/concrete/phrase/path.go:7-16"]}
{"id": "C66", "title": "Calls on the handle of something that is no remark fail and harm nothing", "statement": "GetRemark accepts many identifiers that are no remark's (C34). A creating call on the handle it returns for one of them returns no remark, and every remark stored before or later stays readable. This is false of the code: AddFactToStory succeeds on GetRemark(1) and GetRemark(2), and CreateChildStory on GetRemark(1), connecting class nodes to new facts; on storages with a node 0 AddFactToStory succeeds on other nodes, too. What holds on storages without a node 0: apart from these, no such call returns a remark, and after any history of calls mixed with such calls and with questions every remark is readable. For AddRemarkToFact this is about identifiers not marked as remarks; for the other two, about all identifiers.", "quantifier": "every storage without a node 0 whose Connect ignores existing edges, every history of calls, reopenings and calls on handles fetched by any identifiers, all texts", "why_tests_cant": "Any node of a storage of any size can be fetched as a remark, and what its references and edges lead to depends on the whole history; tests try a few identifiers.", "anchors": ["graph.go:53-61", "internal/concrete/remark/repository.go:90-104", "internal/concrete/remark/aggregate.go:181-369", "internal/concrete/fact/repository.go:83-228", "internal/concrete/detail/aggregate.go:32-60"]}
{"id": "C67", "title": "A creating call that fails leaves its remark behind", "statement": "Once a remark exists, each of the four creating calls, made on a remark of the history, adds a remark to the storage whether it succeeds, returns an error or panics: then and for ever GetRemark finds a remark under the identifier that was the next free one. On a storage without a node 0, AddFactToStory and CreateChildStory never succeed; if CreateStory with the same texts would have returned a remark, they return an error and leave that same remark in the storage, belonging to no fact; GetRemark finds it by its identifier and GetObjectAndProperty returns the texts of the failed call, then and after any further fault-free calls.", "quantifier": "every fault-free history, every creating call, all texts, every later history; storages with and without node 0 (the second sentence: without)", "why_tests_cant": "The call reports an error, so a test that stops there sees nothing; that no history ever avoids or removes the remark is universal over histories.", "anchors": ["internal/concrete/remark/aggregate.go: AddRemarkToFact, AddFactToStory, CreateChildStory", "internal/concrete/remark/repository.go: CreateFirstUserRemark, GetRemark"]}
{"id": "C68", "title": "A remark left behind by a failed call never gets a fact", "statement": "On a storage without a node 0, let AddFactToStory or CreateChildStory fail on texts with which CreateStory would have returned a remark. The remark it leaves behind (C67) belongs to no fact, then and after any further fault-free calls on the remarks that were returned. GetFirstFact and GetStory on it return the error that there is no single target fact, and AddRemarkToFact, AddFactToStory and CreateChildStory on it never succeed.", "quantifier": "every fault-free history, every remark of the history, all texts, every later history on the remarks returned, every text of a call on the remark left behind; storages without node 0", "why_tests_cant": "That nothing ever attaches the remark to a fact is a statement about all later histories: every connection made by every later call has to start elsewhere.", "anchors": ["internal/concrete/remark/aggregate.go: GetFirstFact, AddRemarkToFact, AddFactToStory, CreateChildStory", "internal/concrete/remark/entity.go: GetTargetFact"]}
{"id": "C69", "title": "Calling AddRemarkToFact on a remark left behind does no harm", "statement": "On a storage without a node 0, let a failed AddFactToStory or CreateChildStory have left a remark behind (C67). AddRemarkToFact on that remark, made after any further fault-free calls, fails (C68). It adds one more remark, which GetRemark finds under the identifier that was the next free one. Then and after any further fault-free calls, every remark that was returned answers all queries as it should, and the remark left behind is still found with its texts and still belongs to no fact.", "quantifier": "every fault-free history before and after the failed call and after the call on the remark left behind, all texts; storages without node 0", "why_tests_cant": "The failing call writes to the storage; that none of its writes ever changes an answer is universal over all histories before and after it.", "anchors": ["internal/concrete/remark/aggregate.go: AddRemarkToFact", "internal/concrete/remark/entity.go: GetTargetFact", "internal/concrete/remark/repository.go: GetRemark"]}
