# Formal model of sailfishos/libglibutil in Lean 4

## 1. Approach

The C sources under `/repo/src` are translated by hand, function by function, to
small total Lean functions.  Every definition cites the file and the lines it
models, and says where it simplifies.

* `lean/Verif/C/`      what is needed of C: outcome monad with explicit undefined
                       behaviour, checked machine arithmetic, bounded memory.
* `lean/Verif/Model/`  the model, one file per C file (or part of it).
* `lean/Verif/Spec/`   small specifications, written without reference to the
                       model, in which the properties are stated.
* `lean/Verif/Proof/`  helper lemmas.
* `lean/Verif/Props/`  the property theorems (and only these), with non-vacuity
                       examples next to them.

Undefined behaviour (out of bounds access, read of an uninitialised slot, signed
overflow, bad shift, invalid pointer arithmetic, call through NULL, use after free,
double free) is a distinct outcome `Except.error ub` of the model.  A theorem
"`f x = .ok y`" therefore also says that no undefined behaviour occurs.

Loops are modelled by structural or well-founded recursion when they terminate;
the possibly diverging ones (`gutil_tlvs_decode`, `gutil_log_dump`) are modelled by a
step function and fuel, and termination is then a property to be proved or refuted.

Code that calls back into user code (idle queue, idle pool, inotify, clock notifier, ring
with free functions) is a labelled transition system with an explicit stack of frames: inside a
callback the environment may make any API call, so a theorem about all reachable states
covers all the callback behaviours, nested to any depth. Code which may be used by several
threads (reference counters, the log) is a transition system with a program counter for each thread.
Reads and writes of single variables are atomic and aren't reordered there (in C11 such races are undefined).

Where a property is false of the code, the negation is proved with a concrete
witness (`..._refuted`), and the strongest true variant we found is proved as `..._partial`; the
statement in `properties.jsonl` stays as it is. The status of such a property is `partial`.

The theorems are tested against wrong programs: the model is edited in a scratch copy the way a bug
would change it, and the theorems which are no longer accepted are recorded in `seeded/LOG.jsonl`.

## 2. Plan per property

| Property | Model | Proof |
|---|---|---|
| C01-C04 | byte-level loops of the unsigned MBN codec over 64-bit words, buffer with bounds | induction over the number of 7-bit groups; decoder is characterised against a spec of frames |
| C05-C08 | the same for the signed codec, with checked shifts and signed overflow | as above; sign claim refuted for 10-byte frames; exactly which frames are undefined in ISO C (`C08_iso_c_partial`) |
| C09 | `*_decode2` wrappers | from C02, C08 |
| C10-C12 | TLV codec over the pointer pair as offsets in an object, `gssize` cast explicit | from C01, C02; C12 refuted for lengths of 2^63 and above, proved below |
| C13-C16 | loop of `gutil_tlvs_decode` as a fuelled step function | induction over entries; C13, C16 refuted, partial versions proved |
| C17-C23 | state record of the ring with its real buffer, functions on it | representation invariant + refinement to a list, over all histories; C18, C19, C20, C23 refuted, partial versions proved; C20_exactly: refinement to a list with slots (Spec/RingMem), which predicts every out-of-bounds write |
| C24-C27 | state record of the history, 64/32-bit checked arithmetic | refinement to a list of samples; C26, C27 refuted, partial versions proved, and exactly when the arithmetic is defined (`Props/HistoryExact`) |
| C28-C35 | NULL-terminated pointer array with capacity, heap ids of strings | list induction, refinement; C31 refuted |
| C36-C38 | as above with reference counts of objects | list induction; C38 refuted |
| C39-C44 | heap of blocks with reference counts | invariant over histories; C39-C42, C44 refuted, partial versions proved |
| C45-C48, C80-C82 | GArray contract + the code on top of it | list lemmas; C45-C48, C80, C82 refuted, partial versions proved |
| C49-C57, C83-C85 | byte-level functions | list induction; C51-C55, C57 refuted, partial versions proved |
| C58-C63, C86-C90 | module tree, configuration record, parser, formatter | structural induction over the module chain; C58, C60-C62, C87 refuted, partial versions proved |
| C64-C69 | LTS with frames | invariants over all traces; C69 refuted |
| C70-C72, C91 | LTS with frames | invariants over all traces; C70, C71, C91 refuted, partial versions proved |
| C73-C75, C93 | LTS of watches, kernel and handlers; byte-level parser of events | invariants; C73, C74 refuted, partial versions proved; watches of the same file: exact description with groups (`Spec/InotifyShared.lean`) which is proved for all histories |
| C76 | object/weakref state machine | invariant |
| C77-C78, C92 | bit-vector functions | arithmetic |
| C79 | per module NULL cases | case analysis |
| C94-C95 | LTS with threads | invariants with sums over threads; C95 refuted |
| C96 | LTS with frames on top of the ring | invariant; refuted for partial drops |
| C97-C99 | LTS with the kernel timer | invariants; C98, C99 refuted, partial versions proved |
| C100-C104 | the functions again, with assertions (`Model/*Debug.lean`) | equality with the release functions under their invariants; C101, C102, C104 refuted |
| C107 | threads making their assertions separately, weak references and the timer (`Model/CounterDebug.lean`) | invariant: those who are about to use the counter still have references |
| C118, C82 | sequences of calls (`Model/IntArrayHist.lean`) | refinement to lists (`Spec/IntArray.lean`); invariant over histories for C82_partial |
| C119 | several vectors and strings in one heap, sequences of calls (`Model/StrvHist.lean`) | refinement to lists of strings (`Spec/StrvHist.lean`); invariant: each address has as many owners as there are strings at it |
| C108 | heap of GArrays and their blocks (`Model/IntArrayRef.lean`) | refinement to owners and contents (`Spec/IntArrayRef.lean`) |
| C109 | the same LTS, whole calls | induction on the free functions' bodies; refuted for the maximum size, for drop_last, and for clear if something is added to the front; what is released then is stated by list functions (`fromFront`, `fromBack`) |
| C110 | LTS with frames (`Model/MiscCb.lean`) | invariant: ids outside of calls in progress = existing handlers; refuted otherwise |
| C111 | LTS with frames and addresses of blocks (`Model/ObjvCb.lean`) | invariant: ghost addresses and references of each vector, refinement of `Objv.Spec.next`; refuted otherwise; the invariant also says that the object being finalized is still in the vector, hence each copy or change made by the finalizer fails |
| C112 | LTS with calls in progress (`Model/LogCb.lean`) | invariant: the history so far is an unfinished one of those generated by a grammar (`Spec/LogCb.lean`) |
| C113 | threads, each of which reads one variable per step, interleaved with each other and with changes of the configuration (`Model/LogThreads.lean`) | invariant which relates the history (`Spec/LogThreads.lean`) with the position of each thread; a measure for `C113_finish`; for `C113_wanted` (`Spec/LogThreadsPass.lean`), an invariant which relates what remains to be decided with the decision; witnesses for refutations |
| C114 | the model of the idle queue (C64-C69) | the counter is compared with the history of calls, by induction over it; the invariant of C69 |
| C115 | `sizedNew` and `newFromVals`, with the limit of GLib as a parameter (`Model/IntArray.lean`) | by calculation, for every size and limit; refuted for sizes in the upper three quarters |
| C116 | the model of the idle pool (C70-C72) | references are counted along the history of calls, by induction; the invariant of C70 |
| C117 | any number of threads and pools, each of which is the one of C70 (`Model/IdlePoolDefault.lean`); `GPrivate` is a contract | invariant: each thread has the pool it has got last, unless it has exited since then, and a reference to it; histories of calls by all threads |
| C120 | the model of the ring (C17-C23), the block returned by `flatten` being where its storage is | the elements are at the same place in the same storage after every sequence of calls other than put, put_front, reserve, compact and flatten |
| C121 | the pool, its owner and the main thread, one access to the shared fields at a time (`Model/IdlePoolThreads.lean`); `g_source_remove` and dispatching are contracts; accesses to `idle_id` are atomic and in order | invariant on the reference counter and the log, for all interleavings; a second one under the assumption that sources aren't dispatched before their ids are stored; counterexamples without it |
| C122 | the macros, for any values of `DEBUG`, `GLOG_LEVEL_MAX` and `GLOG_LEVEL_ASSERT`; expressions are functions of the state of the program (`Model/LogMacros.lean`) | induction over the program; counterexamples with side effects |
| C123 | any number of threads, objects and weak references; each function of GLib is one step, `gutil_weakref_unref` is up to three (`Model/WeakThreads.lean`) | invariant over all interleavings |
| C124 | GArray with its memory and capacity; the pointer may point to the elements of the array (`Model/IntArraySelf.lean`) | lists, case analysis; what happens in each case |
| C125 | the counter as a 32-bit number, which wraps around; `ref` and `unref` in the order in which they take effect (`Model/Counter32.lean`) | invariant: the counter is the number of references modulo 2^32; what happens without a limit, and in debug builds |
| C126 | layout of structures, addresses as blocks and offsets (`Model/MacrosCast.lean`) | arithmetic; induction over the fields for the offsets being different |
| C127 | threads which access one variable per step, interleaved (`Model/LogFormat.lean`) | invariant for the single thread which is setting the format, and what each reader knows unless it overlaps (`Spec/LogFormat.lean`); a weaker one for any interleaving (addresses and contents are known); witnesses for refutations |
| C128 | macros which define modules (`Model/LogDefine.lean`), the initial state of the log | composition of C58, C59 and C87; induction over the chain of parents |
| C129 | the queue, a thread which adds things and the main loop, one access to a field at a time (`Model/IdleThreads.lean`); accesses are atomic and in order, freed memory isn't reused | for any interleaving: addresses of items which are still to be taken only grow; if the two don't overlap: which items are in the queue, done and freed, and a measure for the main loop; witnesses by executing the model |
| C130 | the same, and the thread drops the last reference (`Model/IdleRelease.lean`), one access to a field at a time | an invariant which says which items are in the queue, destroyed and freed at each place in gutil_idle_queue_unref, and a measure; witnesses by executing the model |
| C131 | the macros when they are functions (`Model/LogPortable.lean`); programs are lists of statements, as for C122 | induction over the program; compared with the model of C122 |
| C132 | the ring with counters of pointers passed to memcpy and of allocated blocks (`Model/RingCost.lean`), proved to be the same otherwise | what a call copies is a function of the elements, the capacity and the limit (`Buf`); invariant: what has been copied so far is at most twice what was copied by the last allocation, and the capacity is at least twice that, or has reached the limit; induction for the sequences which take quadratic time |
| C133 | the encoders and decoders of C01-C16; encoding a sequence is calling gutil_tlv_encode for each TLV (`Model/DatapackSeq.lean`) | a frame is determined by its length and its value; the length is the least one if and only if the first digit is needed; induction on the sequence; zero digits in front as a counterexample |
| C134-C135 | the history of C24-C27 | what's returned is known from C27; bounds of truncated quotients; induction on two lists of samples with the same times; a family of counterexamples of any length |
| C136 | the decoders of C01-C16; decoding a sequence of numbers is calling gutil_unsigned_mbn_decode until it fails (`Model/DatapackStream.lean`) | encodings are prefix-free; induction on the sequence |
| C137 | the parsers of C52; printing is part of the specification (`Spec/Print.lean`) | what's printed is a number in the sense of C52, and it's only one |
| C138 | the dump of C51 and C62 and all log functions of C58-C64 | the first 49 columns without blanks are the hexadecimal digits; what a message turns into is an injective function of the message |
| C139 | the history of C24-C27 | two histories which look the same from now on; induction on the calls |
| C140 | the log of C58-C62 | two configurations are followed step by step along the ancestors |
| C141 | sorting as in C34 and C48 | sorted permutations of each other are the same, as the order is antisymmetric |
| C142 | the parsers of C52 | each step of the parser commutes with stripping and with changing the case |
| C143 | the ring of C17 with its capacity | the mirrored history is simulated; induction on the calls |
| C144 | the decoders of C02, C08 and C12 | frames are prefixes, and there's only one at the beginning of any data |
| C145 | concatenation and exclusive or as in C55 | the exact results of C55, and laws of lists |
| C146 | a sequence of options, each as in C60 | names never change; induction on the options |
| C147 | the arrays of C45 | the exact results of C45 and C47 |
| C148 | the blocks of C40 | the exact result of C40, twice |
| C149 | the vectors of C29, C30 and C32 | the exact results of these, and idempotence of removing duplicates |
| C150 | the queue of C64 | the states are the same up to renumbering; renumbering commutes with each step |
| C151 | the decoder of C14 | the exact result of C14; a mask is determined by its bits |
| C152 | the rings of C17 | two rings which differ only in capacity stay so; induction on both histories |
| C153 | the functions of C49 and C50 | the exact results of these |
| C154 | the vectors of C37 | the exact results of C37, twice |
| C155 | the encoders of C01, C04 and C05 | frames of the same length are compared digit by digit; the sizes are minimal |
| C156 | the comparison of C43 | four bytes are compared the way the number is whose most significant byte comes first; induction |
| C157 | loops which call the function of C56 | induction on the prefixes, and on the number of bytes left |
| C158 | the states of C73 | the exact result of one iteration, induction on the number of iterations |
| C159 | two histories of C24 | C24 gives the samples of both; samples which have been added are sorted by time |
| C160 | the functions of C30 and C37, called repeatedly | induction on the number of calls; what is left is determined by the strings |
| C161 | two rings of C17 | the lists of both are the same as long as nothing is rejected; induction on the calls |
| C162 | the idle queue of C64, callbacks return at once | the exact state after each cancelled item; induction on the tags |
| C163 | the histories of C119 | what a call does to lists of strings is determined by them; induction on the calls |
| C164 | the blocks of C54 and C55 | from the exact results of C54 and C55 |
| C165 | the vectors of C29 and C35 | induction on the strings; from the exact results of C29 and C35 |
| C166 | the inotify model of C73, handlers return at once | the exact result of reading (C158), induction on the events |
| C167 | the object vectors of C36 and C37 | induction on the objects; the accounting of C37 determines the counts |
| C168 | the int arrays of C45 and C47 | induction on the ints, from the exact results of C45 and C47 |
| C169 | the histories of C27 | the exact result of every call in terms of the samples (C27), for both histories |
| C170 | the rings of C17 | the exact result of every call in terms of the elements (C17), for both histories; the order of releasing doesn't affect anything |
| C171 | the rings of C17 | simulation between two rings with different capacities (C152), what has been released earlier being factored out |
| C172 | the idle queue of C64, callbacks which do nothing (C162) | the exact result of a call, then removals of the first item with each tag commute |
| C173 | the int arrays of C46, the vectors of C30 and C37 | the exact results of single removals commute |
| C105 | the pool with a heap of reference counted objects (`Model/IdlePoolObj.lean`) | invariant: reference counter = client's references + items not yet destroyed |
| C106 | the inotify LTS with GSignal calling handlers one by one (`Model/InotifyCb.lean`) | invariant: the history is accepted by a monitor (`Spec/InotifyCb.lean`) whose state is that of the model |

Every property could be expressed in a model; none is `not_applicable`.

## 3. Trusted base

### 3.1 Logic

* Lean's kernel (4.33.0) and the axioms `propext`, `Classical.choice`, `Quot.sound`. Section 5 tells which theorem
  depends on which axioms. No axioms are added; no `sorry`, `native_decide`, `bv_decide`. Concrete witnesses use
  `decide`/`decide +kernel`, i.e. evaluation by the kernel.
* The hand translation from C to Lean (there is no mechanised C semantics in between). To keep it honest, the unit
  tests of the project are run by the model: `Verif/Check/*.lean` has one `example` per test function, with the same
  calls and the same assertions, evaluated by the kernel. Those are tests of the model and count as nothing else; no property rests on them.

### 3.2 Platform

64-bit `gsize`/pointers, 32-bit `int`/`guint`, two's complement. Where the result depends on more than that
there's a parameter: signed overflow (`Mode`: undefined or wrapping), `memcmp`/`memcpy`/`isprint` called outside of what
the C standard allows (strict or not), signedness of `char`, byte order (inotify), widths of `long` and `time_t` (clock notifier).
Allocation never fails (`g_malloc` aborts). Release build (`GASSERT` is empty), except for C100-C104
and C107 which are about debug builds.

### 3.3 What is modelled

| Source | Modelled | Not modelled, or a contract |
|---|---|---|
| gutil_datapack.c | everything | the caller's buffer is a list of bytes, writes to it are checked |
| gutil_history.c | everything; ref/unref in `Model/Shared.lean` | the clock is an argument |
| gutil_idlepool.c | pool, shared pool, default pools of threads (C117), typed adders with reference counted objects (C105) | GMainContext, GPrivate, GSource: contracts; several threads, except for a main loop run by another one (C121) and the reference counter |
| gutil_idlequeue.c | everything; a thread which adds things while the main loop runs in another one (C129) in `Model/IdleThreads.lean`, and which drops the last reference (C130) in `Model/IdleRelease.lean` | GMainContext, GSource: contracts; several threads, except for that one and the reference counter |
| gutil_inotify.c | everything, including handlers and callbacks (C106) | the kernel, GObject, GSignal, GIOChannel: contracts (including merging of events, queue overflow, and the kernel ceasing to watch a file at any time) |
| gutil_intarray.c | everything; sequences of calls in `Model/IntArrayHist.lean`, several owners in `Model/IntArrayRef.lean`, elements added to the same array in `Model/IntArraySelf.lean` | GArray: contract |
| gutil_ints.c | everything; threads in `Model/Shared.lean` | GBytes: free function like any other |
| gutil_log.c | everything except for Windows code; log functions which use the log in `Model/LogCb.lean`, threads in `Model/LogThreads.lean`, threads and the timestamp format in `Model/LogFormat.lean`, macros in `Model/LogMacros.lean`, macros which define modules in `Model/LogDefine.lean`, macros for compilers other than gcc in `Model/LogPortable.lean` | vsnprintf, strftime, GLib and syslog: contracts | printf formatting (the message is a text), strftime, time, syslog, g_logv: contracts |
| gutil_misc.c | everything; notifications which call back in `Model/MiscCb.lean` | g_ascii_strtoll and friends are modelled; GBytes, GSignal, GSource: contracts |
| gutil_objv.c | everything; finalizers which call back in `Model/ObjvCb.lean` | GObject: reference counts |
| gutil_ring.c | everything, twice: with free functions which don't use the ring, and with those which do | |
| gutil_strv.c | everything; sequences of calls in `Model/StrvHist.lean` | qsort/bsearch: any functions meeting the C standard; aliasing of strings is modelled, that of arrays isn't |
| gutil_timenotify.c | everything | the kernel, GObject, GSignal, GIOChannel: contracts |
| gutil_version.c, gutil_version.h | everything | |
| gutil_weakref.c | everything; several threads in `Model/WeakThreads.lean` | GWeakRef: contract |
| gutil_macros.h | alignment, G_CAST | G_PACKED; gutil_slice_free is g_slice_free1 |

Contracts are given in the comment at the top of each model file.

### 3.4 Limits on sizes

No theorem is about a bounded domain, but some need the counters not to overflow: reference counters
are unbounded numbers, except in `Model/Counter32.lean` which shows that it makes no difference below 2^32 references (C125); vectors of pointers have less than 2^31 (strv) or 2^32 (objv) elements; rings 2^30 elements. Those limits are hypotheses or are stated in the model files.

## 4. Findings

Places where the code doesn't do what a user would expect. Each one marked with a property has a `_refuted` theorem.

* datapack: signed overflow decoding 9-byte negative numbers (C05); the sign of some 10-byte frames is wrong (C07); lengths of 2^63 and above
  take the TLV decoder out of its input (C12), a sequence may be decoded forever (C13); a zero tag at the end is accepted (C16); size of
  TLV wraps at 32 bits (C11).
* ring: capacity may exceed the limit (C18, C19, C23); put after flatten writes out of bounds (C20); free functions which use the ring during
  drop, drop_last (C96).
* history: overflows (C26, C27); the assertion at gutil_history.c:142 fails for a single entry (C101).
* strv: `gutil_strv_remove(sv, sv[i], TRUE)` reads a released string (C31).
* objv: appending a non-empty vector to itself reads released memory or writes out of bounds (C38).
* ints: empty sub-ranges leak a reference (C39, C41); offset+count overflow (C40); unref_to_data of static data calls NULL (C42), and is a
  race if several threads have references (C95); find beyond 2^31 (C44).
* idlepool, default pools: the comment says that the pool remains alive until the thread exits (or until `gutil_idle_pool_release_default`, which doesn't exist); with items in it it stays longer, and they are destroyed by whoever runs the main loop (C117).
* intarray: `sized_new` reserves `reserved * ELEMENT_SIZE` elements, or none if the product overflows (C115); remove_range overflow (C47); comparison by subtraction
  isn't an order (C48); uninitialised elements (C82); out of range remove_index_fast (C80).
* misc: blank strings are parsed as zero (C53); vertical tab hides a minus sign (C52); 4 GiB copies (C57); memcmp, isprint outside of the
  C standard (C51, C54); overflow of concatenation (C55); ids are zeroed after the notifications which may use them (C110); references are dropped before vectors are updated (C111).
* log: the NULL module ignores the DISABLE flag (C58); timestamps longer than 31 characters print uninitialised memory (C87); log_dump of
  4 GiB never ends (C62); parse_option crashes for modules without names (C60); failed set_type changes the name and closes syslog (C61);
  set_type(NULL) selects syslog. Whether a dump is enabled is decided twice, once for all of it and once for each line, so it's cut short if the log function lowers the level.
* log, several threads (C113): gutil_log_func2 and log_proc of a module are compared with NULL and then read again before they are called, so a thread which sets them to NULL makes another one which is logging call NULL; gutil_log_set_timestamp_format frees the format which another thread may be using. A module whose level is changed from its own one to "inherit" may lose a message which it logs at that moment: the level is read twice, and the message is compared with -1. Everything else can be changed by one thread while others are logging.
* log, threads and the timestamp format (C127): gutil_log_set_timestamp_format isn't protected by anything. Threads which log something while the format is being set may use freed memory; if it's being set to NULL then even threads which begin to log after the old one has been freed do, since pointers are reset after that. Two threads which set it at the same time may free the same copy twice, or leak one.
* log macros without GLOG_VARARGS (C131): include/gutil_log.h doesn't compile if GLOG_LEVEL_MAX is less than GLOG_LEVEL_DEBUG, since line 356 uses GLOG_VA_NONE_ which doesn't exist. GERR_ and the like don't print the name of the function, and arguments are evaluated even if messages of that level are compiled out.
* MBN, other encodings (C133): decoders accept numbers which aren't encoded in the shortest way, so that the same content may have several encodings.
* memory of a ring (C152): if the capacity exceeds the limit then the limit can be exceeded, as in C18 and C19; what reserve returns depends on the capacity.
* order of blocks of ints (C156): `memcmp` compares bytes, not ints: 256 is less than 1 on a little-endian machine, and -1 is more than 1 on any.
* larger histories (C159): if the clock goes backwards then a sample may replace one which the smaller history has already dropped, and the times differ.
* limits of rings (C161): a ring for which more has been reserved than its limit allows may hold more than one with a higher limit.
* prefixes of prefixes (C164): in the strict reading of the C standard, an empty block whose data pointer is `NULL` can't even be compared with itself (`C164_refuted`);
* several log options (C146): a module without a name crashes it, as in C60.
* parts of parts (C148): overflow, as in C40.
* cancelled items (C150): cancelling the only item inside of a callback removes the source being dispatched, and the next item gets a source which may be dispatched by a nested main loop.
* parsers (C142): minus zero is zero for gutil_parse_int and gutil_parse_int64, but not a number for the other two.
* ring, both ends (C143): gutil_ring_drop_last releases the oldest element first if all of them are dropped, otherwise the newest one; and lowering the maximum size drops the oldest ones.
* bytes, laws (C145): the same as C55.
* history, queries (C139): they remove samples which are too old, which matters if the clock goes back.
* history, rounding (C134): each area is truncated before they are added, the result may be off by almost 3/2.
* ring, time (C132): gutil_ring_compact after each element, or raising the limit by one before each of them, makes adding elements take quadratic time.
* idle queue and threads (C129): gutil_idle_queue_add and its variants must not be called by other threads while the main loop is running the callbacks, although the reference counter is atomic. What's added may be lost, freed memory may be used, and if the source is dispatched before the id returned by g_idle_add is stored then the queue is never run again.
* idle queue and threads (C130): the last reference must not be dropped by another thread while the main loop is running the callbacks. The queue may be used after that, and the destroy function may be called twice for the same data.
* idle queue: the assertion at gutil_idlequeue.c:270 fails if a destroy callback has cancelled the rest (C102);
  dropping the last reference in a callback is a use after free, adding from a destroy callback during deallocation leaves a dangling
  source (C69).
* idle pool: adding from a destroy function during deallocation is a double free, nested drain breaks the order (C70); dispatch by a wrong thread
  leaves items without a source contrary to the comment (C71); g_source_remove acts on the default context (C91).
* gutil_intarray.c: adding elements of the array to itself reads released memory if the array has to grow, and takes wrong elements if they are moved first (C124). GArray has the same limitation, which isn't mentioned anywhere.
* reference counters: 2^32 + 1 references are as good as one, dropping one of them deallocates the object (C125).
* logging macros: `GVERIFY_EQ(expr,val)` and friends don't evaluate `val` in release builds, contrary to what's expected of GVERIFY (C122).
* version macros 1.0.75 to 1.0.79 have an unbalanced parenthesis (C92).
* inotify: the descriptor is closed twice (C74); nobody is told about events which got lost because the kernel's queue was full (C73); watches of the same inode share a descriptor (C73); no events after a read failure (C73);
  the assertion at gutil_inotify.c:268 fails when both watches of a file are destroyed (C104, C104_exactly says when exactly); `event->len` is read before the `len > nbytes` check.
* timenotify: deaf object if the timer can't be created or fails (C98); TIME_T_MAX is an undefined shift for 32-bit long with 64-bit
  time_t (C99).

## 5. Status, theorems and axioms

Generated from `properties.jsonl`, `MANIFEST.json` and the output of `collectAxioms`.
Axioms: P is `propext`, C is `Classical.choice`, Q is `Quot.sound`; `-` means that the theorem depends on none.

### C01 Unsigned MBN round-trip: proved

* `Verif.Datapack.C01_unsigned_round_trip` [PCQ]
* `Verif.Datapack.C01_buffer_of_ten_is_enough` [PQ]

### C02 Unsigned MBN decoder accepts exactly the valid frames: proved

* `Verif.Datapack.C02_unsigned_decode_exact` [PCQ]
* `Verif.Datapack.C02_frame_unique` [PQ]

### C03 Unsigned MBN size is exact and minimal: proved

* `Verif.Datapack.C03_unsigned_size_minimal` [PCQ]

### C04 Fixed-width unsigned encoding: proved

* `Verif.Datapack.C04_unsigned_encode2` [PCQ]
* `Verif.Datapack.C04_decodes_modulo` [PCQ]

### C05 Signed MBN round-trip: partial

Full round trip proved for wrap-around arithmetic; in strict C the 9-byte negative encodings hit a signed overflow (proved), all others round-trip.

* `Verif.Datapack.C05_signed_round_trip_wrap` [PCQ]
* `Verif.Datapack.C05_signed_round_trip_partial` [PCQ]
* `Verif.Datapack.C05_signed_round_trip_ub` [PCQ]

### C06 Signed MBN size is exact and minimal: proved

* `Verif.Datapack.C06_signed_size_minimal` [PCQ]
* `Verif.Datapack.C06_signed_encode2` [PCQ]
* `Verif.Datapack.C06_oversized` [PCQ]

### C07 Signed MBN decoder: sign of the result: partial

False as documented for some 10-byte frames (refuted with a witness); proved for all the others. C07_exactly: each of those frames is decoded to a number of the opposite sign.

* `Verif.Datapack.C07_exactly` [PCQ]
* `Verif.Datapack.C07_refuted` [PQ]
* `Verif.Datapack.C07_signed_decode_sign_partial` [PCQ]

### C08 Signed MBN decoder accepts exactly the valid frames: partial

Proved for all frames except for the 10-byte quirk and the strict-C overflow for 9-byte negative frames; C08_iso_c_partial says that in ISO C exactly the negative numbers of nine bytes are undefined behaviour and everything else is decoded as with wrap-around; refuted in full.

* `Verif.Datapack.C08_signed_decode_exact_partial` [PCQ]
* `Verif.Datapack.C08_iso_c_partial` [PCQ]
* `Verif.Datapack.C08_refuted` [PQ]

### C09 Whole-buffer decoders reject trailing bytes: proved

* `Verif.Datapack.C09_iso_c` [PCQ]
* `Verif.Datapack.C09_unsigned_decode2` [PCQ]
* `Verif.Datapack.C09_signed_decode2` [PCQ]

### C10 TLV round-trip: proved

* `Verif.Datapack.C10_tlv_encode` [PCQ]
* `Verif.Datapack.C10_tlv_decode` [PCQ]
* `Verif.Datapack.C10_tlv_round_trip` [PCQ]

### C11 gutil_tlv_size predicts the encoded size: partial

False when the size does not fit in 32 bits (refuted); proved otherwise.

* `Verif.Datapack.C11_tlv_size_partial` [PCQ]
* `Verif.Datapack.C11_tlv_size_mod` [PQ]
* `Verif.Datapack.C11_refuted` [PCQ]

### C12 TLV decoder never leaves its input: partial

False for lengths of 2^63 or more (refuted, and every such input is proved to break it); proved for all other inputs.

* `Verif.Datapack.C12_refuted` [PQ]
* `Verif.Datapack.C12_tlv_decode_within_partial` [PCQ]
* `Verif.Datapack.C12_every_huge_header_breaks` [PCQ]

### C13 Decoding a TLV sequence terminates: partial

False in a flat address space (a witness input loops forever); termination proved for all the other inputs, and for all inputs whatsoever if unknown tags are not skipped (C13_known_tags).

* `Verif.Datapack.C13_known_tags` [PCQ]
* `Verif.Datapack.C13_refuted` [PQ]
* `Verif.Datapack.C13_tlvs_decode_terminates_partial` [PCQ]

### C14 TLV sequence decoding is exact on well-formed input: proved

* `Verif.Datapack.C14_tlvs_decode_exact` [PCQ]

### C15 TLV sequence errors are reported: proved

* `Verif.Datapack.C15_duplicate_tag` [PCQ]
* `Verif.Datapack.C15_unknown_tag` [PCQ]
* `Verif.Datapack.C15_decode_error` [PCQ]

### C16 A zero tag is never accepted as part of a valid sequence: partial

False: a TLV with tag zero at the end is accepted (refuted); proved that nothing else is (C16_exactly), and what happens if anything follows it (C16_zero_tag). What holds is proved both when leaving the object is an error and when pointers wrap, the latter for inputs without lengths of 2^63 or more.

* `Verif.Datapack.C16_refuted` [PQ]
* `Verif.Datapack.C16_accepted_partial` [PCQ]
* `Verif.Datapack.C16_zero_tag` [PCQ]
* `Verif.Datapack.C16_exactly` [PCQ]

### C17 Ring buffer behaves as a double-ended queue: partial

C17_exact_partial tells what each call returns, for capacities up to 2^30 (C17_refuted_by_size: growing beyond that overflows), if nothing is added after a flatten which may have reallocated the memory (C17_refuted: it writes past the end). C17_or_oob and C17_or_oob_freed drop that condition: any history either returns (and releases) what a list does, or contains a flatten and writes out of bounds; C20_exactly tells which of the two. Free functions do not re-enter the ring (C96 is about those).

* `Verif.Ring.C17_ring_is_a_deque_partial` [PCQ]
* `Verif.Ring.C17_exact_partial` [PCQ]
* `Verif.Ring.C17_refuted` [P]
* `Verif.Ring.C17_refuted_by_size` [PQ]
* `Verif.Ring.C17_or_oob` [PCQ]
* `Verif.Ring.C17_or_oob_freed` [PCQ]

### C18 Ring buffer never exceeds its maximum size: partial

False if the capacity exceeds the limit (two refutations); proved otherwise. C17_exact_partial tells in advance, for every history, which put will fail. C18_exactly: the size never exceeds the largest of all the limits and of the size reserved at creation.

* `Verif.Ring.C18_refuted` [P]
* `Verif.Ring.C18_refuted_by_lowering` [P]
* `Verif.Ring.C18_ring_size_bounded_partial` [PCQ]
* `Verif.Ring.C18_exactly` [PCQ]

### C19 gutil_ring_can_put predicts gutil_ring_put: partial

can_put implies put proved for all histories; the converse is false if the capacity exceeds the limit (refuted), proved otherwise. C17_exact_partial tells exactly when they differ. C19_exactly gives the condition under which each of the calls succeeds, without exceptions.

* `Verif.Ring.C19_refuted` [P]
* `Verif.Ring.C19_can_put_predicts_put_partial` [PCQ]
* `Verif.Ring.C19_exactly` [PCQ]

### C20 Ring buffer accesses stay within its allocation: partial

False: flatten followed by put writes out of bounds (refuted). C20_exactly is the complete answer for capacities up to 2^30: Spec/RingMem.lean predicts from the slots occupied which histories write out of bounds, and those which do not are defined and return what it says. C20_without_flatten: nothing goes wrong if flatten is never called.

* `Verif.Ring.C20_refuted` [P]
* `Verif.Ring.C20_ring_memory_safe_partial` [PCQ]
* `Verif.Ring.C20_exactly` [PCQ]
* `Verif.Ring.C20_without_flatten` [PCQ]

### C21 Ring buffer frees each element exactly once: proved

* `Verif.Ring.C21_ring_frees_once` [PCQ]
* `Verif.Ring.C21_ring_frees_nothing` [PCQ]
* `Verif.Ring.C21_every_history` [PCQ]
* `Verif.Ring.C21_every_history_func` [PCQ]
* `Verif.Ring.C21_every_history_none` [PCQ]

### C22 Flatten exposes the ring contents contiguously: proved

* `Verif.Ring.C22_ring_flatten` [PCQ]
* `Verif.Ring.C22_every_history` [PCQ]

### C23 Reserving succeeds only if the space is really there: partial

False beyond the maximum size (refuted); proved within it. C23_exactly says when reserve fails with a limit, for any number.

* `Verif.Ring.C23_refuted` [P]
* `Verif.Ring.C23_reserve_partial` [PCQ]
* `Verif.Ring.C23_exactly` [PCQ]

### C24 History keeps exactly the recent samples: proved

Any size, any interval, any clock which is never negative (or is not too far from the smallest 64-bit number, see ClockOk).

* `Verif.History.C24_history_contents` [PCQ]
* `Verif.History.C24_history_keeps_recent_samples` [PCQ]
* `Verif.History.C24_history_bad_parameters` [PCQ]

### C25 History size and interval bounds: proved

Any size, any interval, any clock which is never negative (or is not too far from the smallest 64-bit number, see ClockOk).

* `Verif.History.C25_size_bounded` [PCQ]
* `Verif.History.C25_interval_bounded` [PCQ]

### C26 Median lies between the smallest and the largest sample: partial

False when the sum of two values overflows (refuted for wrapping arithmetic). C26_exactly_partial: whenever the sums and areas fit in their types the result is the time-weighted average and is between the smallest and the largest sample, otherwise it is a signed overflow (capacity up to 2^30, interval up to 2^62).

* `Verif.History.C26_average_partial` [PCQ]
* `Verif.History.C26_refuted` [P]
* `Verif.History.C26_exactly_partial` [PCQ]

### C27 History arithmetic is well-defined: partial

 The size query overflows too if the maximum size is over 2^30 (C27_size_refuted, for each such size), and so does a clock near the smallest 64-bit number (C27_clock_refuted); those are the only cases excluded from C27_exactly.

* `Verif.History.C27_refuted` [P]
* `Verif.History.C27_refuted_by_interval` [P]
* `Verif.History.C27_history_defined_partial` [PCQ]
* `Verif.History.C27_history_defined_if_wrapping` [PCQ]
* `Verif.History.C27_exactly` [PCQ]
* `Verif.History.C27_size_refuted` [PCQ]
* `Verif.History.C27_clock_refuted` [P]

### C28 String vector lookup: proved

* `Verif.Strv.C28_lookup` [PQ]
* `Verif.Strv.C28_find` [PQ]
* `Verif.Strv.C28_index_meaning` [PCQ]
* `Verif.Strv.C28_null` [P]

### C29 String vector append: proved

* `Verif.Strv.C29_add` [PCQ]
* `Verif.Strv.C29_addv` [PCQ]
* `Verif.Strv.C29_add_null` [P]

### C30 String vector removal: proved

Vectors owning their strings (no string twice); string given by the caller not owned by the vector (see C31).

* `Verif.Strv.C30_remove_at` [PCQ]
* `Verif.Strv.C30_remove_at_out_of_range` [PCQ]
* `Verif.Strv.C30_remove` [PCQ]
* `Verif.Strv.C30_free` [PQ]

### C31 Removal is safe when the searched string belongs to the vector: partial

False: gutil_strv_remove(sv, sv[i], TRUE) uses the string after it has been released (refuted for all vectors in which the string is the first of its kind and not the last element); proved when only one string is removed. C31_exactly says which of the vector's own strings can be used to remove all the equal ones: the first one if it's the very last string, and the one right after the first one; all the others are used after they have been released.

* `Verif.Strv.C31_refuted` [PCQ]
* `Verif.Strv.C31_remove_own_string_partial` [PCQ]
* `Verif.Strv.C31_exactly` [PCQ]

### C32 Duplicate removal keeps first occurrences: proved

* `Verif.Strv.C32_remove_dups` [PCQ]
* `Verif.Strv.C32_firsts_meaning` [PQ]

### C33 String vector equality: proved

* `Verif.Strv.C33_equal` [PQ]
* `Verif.Strv.C33_equal_null` [PQ]
* `Verif.Strv.C33_equal_equivalence` [PQ]

### C34 String vector sorting and binary search agree: proved

For every qsort/bsearch meeting the C standard contract.

* `Verif.Strv.C34_sort` [PCQ]
* `Verif.Strv.C34_bsearch` [PCQ]
* `Verif.Strv.C34_sort_then_bsearch` [PCQ]
* `Verif.Strv.C34_bsearch_null` [P]

### C35 String vector strip: proved

* `Verif.Strv.C35_strip` [PQ]
* `Verif.Strv.C35_strip_meaning` [PQ]
* `Verif.Strv.C35_strip_idempotent` [PQ]

### C36 Object vector contents: proved

* `Verif.Objv.C36_lookup` [PQ]
* `Verif.Objv.C36_index_meaning` [PCQ]
* `Verif.Objv.C36_equal` [PQ]
* `Verif.Objv.C36_null` [P]
* `Verif.Objv.C36_changes` [PCQ]

### C37 Object vector reference accounting: proved

For every history of calls with existing objects and vectors, without append of a vector to itself (see C38).

* `Verif.Objv.C37_accounting` [PCQ]
* `Verif.Objv.C37_history` [PCQ]
* `Verif.Objv.C37_all_released` [PCQ]

### C38 Appending an object vector to itself: partial

False for every non-empty vector (refuted in general); true for empty ones. C38_exactly says what goes wrong: a read of released memory if the block moves, writing past its end if it does not.

* `Verif.Objv.C38_refuted` [PCQ]
* `Verif.Objv.C38_exactly` [PCQ]
* `Verif.Objv.C38_append_self_empty_partial` [PQ]

### C39 Int blocks: data lifetime: partial

False: asking for an empty sub-range leaks a reference (refuted); proved for all the histories without that and without guint overflow of offset+count. C39_exactly: with empty sub-ranges, everything is as it would be if each of them were a reference.

* `Verif.Ints.C39_refuted` [P]
* `Verif.Ints.C39_lifetime_partial` [PCQ]
* `Verif.Ints.C39_exactly` [PCQ]

### C40 Int blocks: sub-ranges: partial

False if offset+count overflows (refuted); proved otherwise. C40_exactly covers the excluded cases: if the sum isn't a guint, the part claims to have more ints than there are.

* `Verif.Ints.C40_refuted` [P]
* `Verif.Ints.C40_subrange_partial` [PCQ]
* `Verif.Ints.C40_exactly` [PQ]

### C41 Int blocks: failed creation takes no reference: partial

False for every empty sub-range within the range (refuted in general); proved in all other cases. C41_exactly says when NULL is returned and when there's one reference too many.

* `Verif.Ints.C41_refuted` [PQ]
* `Verif.Ints.C41_null_partial` [PQ]
* `Verif.Ints.C41_exactly` [PQ]

### C42 Int blocks: unref_to_data: partial

False for the last reference to static data (NULL is called) and for g_free with other user data (refuted); proved for all other histories. C42_static_exactly: what the block made from static memory is in all cases.

* `Verif.Ints.C42_static_refuted` [PQ]
* `Verif.Ints.C42_gfree_refuted` [P]
* `Verif.Ints.C42_to_data_partial` [PCQ]
* `Verif.Ints.C42_static_exactly` [PCQ]

### C43 Int blocks: equality, hash and ordering are coherent: proved

* `Verif.Ints.C43_equal` [PCQ]
* `Verif.Ints.C43_hash` [PCQ]
* `Verif.Ints.C43_compare` [PCQ]
* `Verif.Ints.C43_prefix` [PCQ]

### C44 Int blocks: search: partial

find is false for more than 2^31 ints (refuted), proved otherwise; contains proved for all. C44_find_exactly covers blocks of any size: the first index is converted to an int.

* `Verif.Ints.C44_find_refuted` [PQ]
* `Verif.Ints.C44_find_partial` [PCQ]
* `Verif.Ints.C44_contains` [P]
* `Verif.Ints.C44_find_exactly` [PCQ]

### C45 Int array is a list: partial

Searching is false beyond 2^31 elements (refuted; recent versions of GLib don't support that many), everything else proved for all arrays. C45_exactly covers arrays of any size: only the first 2^31 ints are found.

* `Verif.IntArray.C45_add` [PQ]
* `Verif.IntArray.C45_new` [PQ]
* `Verif.IntArray.C45_remove` [PQ]
* `Verif.IntArray.C45_find_refuted` [PQ]
* `Verif.IntArray.C45_find_partial` [PCQ]
* `Verif.IntArray.C45_exactly` [PCQ]

### C46 Int array: removal by value: partial

False beyond 2^31 elements (refuted; recent versions of GLib don't support that many), proved otherwise. C46_exactly covers arrays of any size.

* `Verif.IntArray.C46_refuted` [PQ]
* `Verif.IntArray.C46_remove_partial` [PCQ]
* `Verif.IntArray.C46_exactly` [PCQ]

### C47 Int array: range removal: partial

False for all the pos and count whose sum overflows (refuted in general); proved for all others. C47_exactly covers all the positions and counts.

* `Verif.IntArray.C47_refuted` [PQ]
* `Verif.IntArray.C47_range_partial` [PQ]
* `Verif.IntArray.C47_exactly` [PQ]

### C48 Int array: sorting: partial

False if two elements differ by 2^31 or more (refuted for every sorting function meeting the contract); proved otherwise. C48_compare_exactly and C48_wrap_exactly: which pairs overflow, and what the order becomes if arithmetic wraps.

* `Verif.IntArray.C48_refuted` [PQ]
* `Verif.IntArray.C48_sort_partial` [PCQ]
* `Verif.IntArray.C48_compare_exactly` [PCQ]
* `Verif.IntArray.C48_wrap_exactly` [PCQ]

### C49 Hex round-trip: proved

* `Verif.Misc.C49_roundtrip` [PCQ]
* `Verif.Misc.C49_digits` [PQ]

### C50 Hex decoder accepts exactly hex strings: proved

* `Verif.Misc.C50_decode` [PCQ]
* `Verif.Misc.C50_decode_bin` [PCQ]
* `Verif.Misc.C50_null` [PQ]

### C51 Hex dump line format: partial

False in the strict reading of isprint() which allows no negative values (refuted for all blocks with such a byte on a platform with signed char); proved for all sizes otherwise. C51_exactly: any byte over 0x7f is undefined behaviour if char is signed and isprint takes only what the standard allows.

* `Verif.Misc.C51_exactly` [PCQ]
* `Verif.Misc.C51_refuted` [PQ]
* `Verif.Misc.C51_hexdump_partial` [PCQ]

### C52 Integer parsing: partial

False: vertical tab is skipped by strtoll but not by g_strstrip, so that the minus sign after it is not noticed by the unsigned parser (refuted); proved for all strings without vertical tabs which are not blank (those are C53). The `_exactly` theorems tell what is accepted for all strings; other bases are never accepted.

* `Verif.Parse.C52_refuted` [PQ]
* `Verif.Parse.C52_int64_partial` [PCQ]
* `Verif.Parse.C52_uint64_partial` [PCQ]
* `Verif.Parse.C52_empty` [P]
* `Verif.Parse.C52_base` [PCQ]
* `Verif.Parse.C52_int64_exactly` [PCQ]
* `Verif.Parse.C52_uint64_exactly` [PCQ]

### C53 A blank string is not a number: partial

False: all blank non-empty strings are parsed as zero (refuted in general); proved for all others. C53_exactly: the result for any string without digits.

* `Verif.Parse.C53_refuted` [PCQ]
* `Verif.Parse.C53_partial` [PCQ]
* `Verif.Parse.C53_exactly` [PCQ]

### C54 Data block comparison: partial

False if memcmp may not be called with NULL and zero size (refuted for the data the library itself produces); proved if it may, or if the pointers are not NULL. gutil_bytes_xxx proved in all cases. C54_exactly: comparisons with a block without memory.

* `Verif.Misc.C54_refuted` [P]
* `Verif.Misc.C54_data_equal_partial` [PQ]
* `Verif.Misc.C54_data_prefix_partial` [PQ]
* `Verif.Misc.C54_data_suffix_partial` [PCQ]
* `Verif.Misc.C54_bytes_equal` [PQ]
* `Verif.Misc.C54_bytes_prefix` [PCQ]
* `Verif.Misc.C54_exactly` [PQ]

### C55 Bytes concatenation and xor: partial

False if the sum of the sizes overflows gsize (refuted), and in the strict reading for empty NULL blocks and unaligned data (refuted); proved otherwise. C55_concat_exactly and C55_xor_exactly: the result in the excluded cases.

* `Verif.Misc.C55_refuted` [PQ]
* `Verif.Misc.C55_concat_partial` [PCQ]
* `Verif.Misc.C55_xor_partial` [PCQ]
* `Verif.Misc.C55_null` [PQ]
* `Verif.Misc.C55_concat_exactly` [PCQ]
* `Verif.Misc.C55_xor_exactly` [PCQ]

### C56 Range prefix: proved

* `Verif.Misc.C56_range` [PCQ]
* `Verif.Misc.C56_null` [P]
* `Verif.Misc.C56_init` [-]

### C57 Data copies: partial

False for all blocks of 4 GiB and more (refuted in general); proved for all smaller ones. C57_exactly: the copy of a block of any size.

* `Verif.Misc.C57_refuted` [PQ]
* `Verif.Misc.C57_copy_partial` [PQ]
* `Verif.Misc.C57_variant` [PCQ]
* `Verif.Misc.C57_from` [P]
* `Verif.Misc.C57_exactly` [PQ]

### C58 Logging decision: partial

False for the NULL module if the default module is disabled, or inherits from a parent (refuted); proved for all modules, and for NULL otherwise. Handlers which change the configuration: C112. C58_null_exactly: NULL module without conditions on the default module. C58_nobody: with level zero or no log function nothing is logged.

* `Verif.Log.C58_refuted` [P]
* `Verif.Log.C58_module_partial` [PCQ]
* `Verif.Log.C58_null_partial` [P]
* `Verif.Log.C58_null_exactly` [P]
* `Verif.Log.C58_nobody` [P]

### C59 Log level inheritance: proved

For every module which is not its own ancestor; C59_chain shows that there is one chain of settings for each.

* `Verif.Log.C59_level` [PCQ]
* `Verif.Log.C59_chain` [PCQ]
* `Verif.Log.C59_null` [P]

### C60 Log option parsing: partial

False if one of the modules has no name (crash, refuted); proved otherwise. C60_exactly: which module is chosen if some given modules have no name.

* `Verif.Log.C60_unique` [PCQ]
* `Verif.Log.C60_default` [PCQ]
* `Verif.Log.C60_refuted` [P]
* `Verif.Log.C60_module_partial` [PCQ]
* `Verif.Log.C60_exactly` [PCQ]

### C61 Log type selection: partial

False: a failing call changes the default name and closes the system log (refuted); everything else proved. C61_failure_exactly: what a failing call changes.

* `Verif.Log.C61_refuted` [P]
* `Verif.Log.C61_success` [P]
* `Verif.Log.C61_failure_partial` [P]
* `Verif.Log.C61_failure_exactly` [P]

### C62 Log dump covers all data: partial

False for 4 GiB and more: it never ends (refuted in general); proved below that, under the same condition on isprint as C51. C62_exactly: the other excluded case, bytes over 0x7f with signed char.

* `Verif.Log.C62_refuted` [PCQ]
* `Verif.Log.C62_dump_partial` [PCQ]
* `Verif.Log.C62_disabled` [PQ]
* `Verif.Log.C62_exactly` [PCQ]

### C63 Timestamp format: proved

* `Verif.Log.C63_format` [PCQ]

### C64 Idle queue: each callback runs at most once, in order: proved

Labelled transition system: the client may call any function from any callback, and run the main loop recursively; every reachable state. Cancelled items never run; nothing added before cancel_all was called runs after it has returned. C64_cancellation: complete effect of the call if destroy functions just return.

* `Verif.Idle.C64_order` [PCQ]
* `Verif.Idle.C64_added` [PCQ]
* `Verif.Idle.C64_cancelled` [PCQ]
* `Verif.Idle.C64_cancel_all` [PCQ]
* `Verif.Idle.C64_not_lost` [PCQ]
* `Verif.Idle.C64_cancellation` [PCQ]

### C65 Idle queue: destroy function is invoked exactly once: proved

Same transition system. At most once at any moment, exactly once outside of callbacks for each item which isn't in the queue, and for all of them once the queue is deallocated. C65_last_unref: complete effect of dropping the last reference if destroy functions just return.

* `Verif.Idle.C65_at_most_once` [PCQ]
* `Verif.Idle.C65_exactly_once` [PCQ]
* `Verif.Idle.C65_after_run` [PCQ]
* `Verif.Idle.C65_freed` [PCQ]
* `Verif.Idle.C65_last_unref` [PCQ]

### C66 Idle queue: items added by callbacks wait for the next iteration: proved

Same transition system; also, when the idle callback returns, everything added before it was invoked has been run or cancelled. C66_iteration: complete effect of an iteration of the main loop if callbacks just return.

* `Verif.Idle.C66_next_iteration` [PCQ]
* `Verif.Idle.C66_all_of_them` [PCQ]
* `Verif.Idle.C66_iteration` [PCQ]

### C67 Idle queue: pending items always have a scheduled source: proved

Same transition system; exactly one source if there's something in the queue, none if it's empty and not being run.

* `Verif.Idle.C67_scheduled` [PCQ]
* `Verif.Idle.C67_not_scheduled` [PCQ]
* `Verif.Idle.C67_at_most_one` [PCQ]

### C68 Idle queue: tags: proved

For every reachable state: the first item with the tag and nothing else is removed.

* `Verif.Idle.C68_add` [PCQ]
* `Verif.Idle.C68_contains` [PQ]
* `Verif.Idle.C68_cancel` [PCQ]

### C69 Idle queue: safe to release from its own callback: partial

Refuted: dropping the last reference inside of a callback is a use after free (theorems with concrete histories and a general one); adding an item from a destroy callback when the queue is being deallocated leaves a dangling source. Partial: no undefined behaviour in any history which doesn't do that. C69_exactly: in any reachable state, dropping the last reference (with all callbacks returning afterwards) goes well if and only if no callback is being run other than destroy functions called by gutil_idle_queue_cancel_tag for items which were not the first ones.

* `Verif.Idle.C69_safe_partial` [PCQ]
* `Verif.Idle.C69_unref_in_callback_refuted` [PQ]
* `Verif.Idle.C69_unref_in_cancel_refuted` [PQ]
* `Verif.Idle.C69_add_when_deallocating_refuted` [PQ]
* `Verif.Idle.C69_unref_in_callback_always` [PCQ]
* `Verif.Idle.C69_exactly` [PCQ]

### C70 Idle pool: each item is released exactly once, in order: partial

Labelled transition system: the client may call any function from any destroy function, and run the main loop recursively. Exactly once and no later than the drain or deallocation: proved. Order: refuted when a destroy function adds something and drains the pool, proved otherwise. Safety: refuted (double free) if a destroy function adds to the pool which is being deallocated, proved for all other histories. C70_runs: if destroy functions just return, exactly all items are destroyed, in order, and the call returns. C70_added says what add does: the object is in the pool afterwards, to be destroyed. C70_order_exactly: whatever the destroy functions do, the items which get overtaken are exactly those which the interrupted drains have not got to yet. C70_safe_always: adding to any pool which is being deallocated goes wrong.

* `Verif.Pool.C70_once` [PCQ]
* `Verif.Pool.C70_accounted` [PCQ]
* `Verif.Pool.C70_drained` [PCQ]
* `Verif.Pool.C70_empty` [PCQ]
* `Verif.Pool.C70_deallocated` [PCQ]
* `Verif.Pool.C70_order_partial` [PCQ]
* `Verif.Pool.C70_order_refuted` [PQ]
* `Verif.Pool.C70_safe_partial` [PCQ]
* `Verif.Pool.C70_safe_refuted` [PQ]
* `Verif.Pool.C70_safe_always` [PCQ]
* `Verif.Pool.C70_order_exactly` [PCQ]
* `Verif.Pool.C70_runs` [PCQ]
* `Verif.Pool.C70_added` [PCQ]

### C71 Idle pool: pending items always have a scheduled source or reference: partial

Refuted if the source is dispatched by a wrong thread (the items are left without a source, contrary to the comment in the code); proved for all other histories. C71_exactly: nothing else leaves items without a source, that always does unless the pool goes away, and adding one more item schedules it again.

* `Verif.Pool.C71_scheduled_partial` [PCQ]
* `Verif.Pool.C71_scheduled_refuted` [PQ]
* `Verif.Pool.C71_idle` [PCQ]
* `Verif.Pool.C71_alive` [PCQ]
* `Verif.Pool.C71_exactly` [PCQ]

### C72 Idle pool: shared pool pointer never dangles: proved

Every reachable state of a shared pool, including other pools being stored to the same pointer.

* `Verif.Pool.C72_pointer` [PCQ]
* `Verif.Pool.C72_unused` [PQ]

### C73 Inotify watches are independent: partial

False as stated: two watches of the same file share a watch descriptor, so the first one gets nothing (C73_shared_refuted), destroying it makes the second one deaf (C73_destroyed_refuted), masks are replaced (C73_mask_refuted), and a watch may get what happened before its creation (C73_early_refuted); a read failure makes all watches deaf (C73_failed_refuted). Proved for every file which isn't being watched twice at once, whatever the other watches do: order, exactness, completeness. Proved for all watches: only what happened to the file, and was asked for by someone watching it, is delivered (C73_sound); the main loop is able to dispatch unless reads fail. The kernel may merge events (C73_merged_partial: only into those which have yet to be delivered) and lose them (C73_lost_refuted: nobody is told). C73_iteration: the main loop takes events from the kernel and gets done if handlers leave the watches alone.

* `Verif.Inotify.C73_sound` [PCQ]
* `Verif.Inotify.C73_prefix_partial` [PCQ]
* `Verif.Inotify.C73_complete_partial` [PCQ]
* `Verif.Inotify.C73_merged_partial` [PCQ]
* `Verif.Inotify.C73_lost_refuted` [PQ]
* `Verif.Inotify.C73_dispatch_partial` [PCQ]
* `Verif.Inotify.C73_early_refuted` [PQ]
* `Verif.Inotify.C73_shared_refuted` [PQ]
* `Verif.Inotify.C73_destroyed_refuted` [PQ]
* `Verif.Inotify.C73_mask_refuted` [PQ]
* `Verif.Inotify.C73_failed_refuted` [PQ]
* `Verif.Inotify.C73_newest` [PCQ]
* `Verif.Inotify.C73_group_prefix` [PCQ]
* `Verif.Inotify.C73_group_complete` [PCQ]
* `Verif.Inotify.C73_group_member` [PCQ]
* `Verif.Inotify.C73_stops` [PCQ]
* `Verif.Inotify.C73_silent` [PCQ]
* `Verif.Inotify.C73_main_loop` [PCQ]
* `Verif.Inotify.C73_recorded` [PQ]
* `Verif.Inotify.C73_iteration` [PCQ]

### C74 Inotify instance lifetime: partial

Lifetime proved (C74_alive, C74_open). 'Closed exactly once' is false: every descriptor is closed twice (C74_twice_refuted, for every history), which closes a descriptor of another thread under a race (C74_foreign_refuted); without the race other descriptors aren't affected (C74_foreign_partial). C74_references: the effect of every call on the references of the client. C74_foreign_exactly: the descriptors of others after any step, for any descriptor opened meanwhile by another thread.

* `Verif.Inotify.C74_alive` [PCQ]
* `Verif.Inotify.C74_open` [PCQ]
* `Verif.Inotify.C74_twice_refuted` [PCQ]
* `Verif.Inotify.C74_foreign_refuted` [PQ]
* `Verif.Inotify.C74_foreign_partial` [PCQ]
* `Verif.Inotify.C74_foreign_exactly` [PCQ]
* `Verif.Inotify.C74_references` [PCQ]

### C75 Inotify event parsing: proved

Byte-level, both byte orders. C75_read combines it with how many events the kernel puts to the 272 byte buffer.

* `Verif.Inotify.C75_parse` [PCQ]
* `Verif.Inotify.C75_fits` [PQ]
* `Verif.Inotify.C75_read` [PCQ]
* `Verif.Inotify.C75_truncated` [PCQ]

### C76 Weak reference: proved

Labelled transition system with any number of objects; GWeakRef itself is a contract (GLib). One thread. C76_recorded and C76_created connect calls with the history.

* `Verif.Weak.C76_get` [PCQ]
* `Verif.Weak.C76_weak` [PCQ]
* `Verif.Weak.C76_new` [P]
* `Verif.Weak.C76_lifetime` [PCQ]
* `Verif.Weak.C76_safe` [PCQ]
* `Verif.Weak.C76_recorded` [P]
* `Verif.Weak.C76_created` [P]

### C77 Version packing: proved

All components within their bit widths.

* `Verif.Version.C77_decode` [PCQ]
* `Verif.Version.C77_order` [PCQ]
* `Verif.Version.C77_current` [PQ]

### C78 Alignment macros: proved

Unsigned and signed types of any width of at least 4 bits; values for which the addition doesn't overflow. C78_overflow tells what happens otherwise.

* `Verif.Macros.C78_unsigned` [PCQ]
* `Verif.Macros.C78_signed` [PCQ]
* `Verif.Macros.C78_overflow` [PCQ]

### C79 NULL-tolerance: proved

NULL ring and history can't be told from empty ones; the other modules: all the functions written as NULL-tolerant (see also the _null theorems of the vectors, miscellaneous functions and the log). NULL idle queue and idle pool: see the models.

* `Verif.Ring.C79_ring` [PQ]
* `Verif.History.C79_history` [P]
* `Verif.Ints.C79_ints` [PQ]
* `Verif.IntArray.C79_intarray` [PQ]
* `Verif.Objv.C79_object` [PCQ]
* `Verif.Misc.C79_misc` [PQ]
* `Verif.Strv.C79_strv` [P]
* `Verif.Objv.C79_objv` [P]
* `Verif.Idle.C79_idle_queue` [-]

### C80 Int array: removal out of range: partial

False of gutil_int_array_remove_index_fast (refuted); proved for the other functions.

* `Verif.IntArray.C80_fast_refuted` [PQ]
* `Verif.IntArray.C80_index_partial` [PQ]

### C81 Int array: handing over the data: proved

* `Verif.IntArray.C81_handover` [P]

### C82 Int array: every element is initialised: partial

False: every insertion past the end and every growth leaves uninitialised ints (refuted). C82_partial proves it for every history without such calls (and without sorts where the comparison overflows, where anything could happen), without other conditions. C82_exactly: each of the excluded calls does leave uninitialised elements.

* `Verif.IntArray.C82_refuted` [PQ]
* `Verif.IntArray.C82_partial` [PCQ]
* `Verif.IntArray.C82_exactly` [PQ]

### C83 Pointer vectors: proved

* `Verif.Misc.C83_ptrv` [PQ]
* `Verif.Misc.C83_null` [P]

### C84 Copies of memory: proved

* `Verif.Misc.C84_memdup` [P]
* `Verif.Misc.C84_strlen` [P]

### C85 Disconnecting handlers and removing sources: proved

* `Verif.Misc.C85_disconnect` [PQ]
* `Verif.Misc.C85_nothing` [PQ]
* `Verif.Misc.C85_source` [P]

### C86 Log handlers: proved

* `Verif.Log.C86_handler` [P]
* `Verif.Log.C86_provided` [P]

### C87 Log lines: partial

False for timestamps of more than 31 characters: uninitialised memory is printed (refuted in general), and for messages of 2^31-1 characters (refuted); proved otherwise. C87_exactly: what is printed if the timestamp does not fit.

* `Verif.Log.C87_refuted` [PQ]
* `Verif.Log.C87_line_partial` [PCQ]
* `Verif.Log.C87_refuted_long` [PQ]
* `Verif.Log.C87_exactly` [PQ]

### C88 Log severity: proved

* `Verif.Log.C88_severity` [PCQ]
* `Verif.Log.C88_logged` [PCQ]
* `Verif.Log.C88_name` [PCQ]
* `Verif.Log.C88_syslog_exactly` [PCQ]
* `Verif.Log.C88_glib_exactly` [PQ]

### C89 Log environment variables: proved

C89_environment: the resulting state. C89_messages: everything which is printed meanwhile, for any way the library may be compiled.

* `Verif.Log.C89_environment` [PQ]
* `Verif.LogMacros.C89_messages` [PCQ]

### C90 Log description: proved

* `Verif.Log.C90_description` [PQ]

### C91 Idle pool: sources of others: partial

Refuted for threads with a main context of their own: g_source_remove acts on the default context and removes whatever has the same id there. Proved for the default context. C91_exactly and C91_empty_exactly say what's removed otherwise: the source of the default context which has the same id as the pool's own source, if there's one, and nothing else.

* `Verif.Pool.C91_foreign_partial` [PQ]
* `Verif.Pool.C91_foreign_refuted` [PQ]
* `Verif.Pool.C91_exactly` [PCQ]
* `Verif.Pool.C91_empty_exactly` [PQ]

### C92 Specific version macros: partial

Refuted for 1.0.75 and later: unbalanced parenthesis. Proved for the others.

* `Verif.Version.C92_specific_partial` [PQ]
* `Verif.Version.C92_specific_refuted` [PQ]
* `Verif.Version.C92_others` [PQ]

### C93 Inotify memory safety: proved

Transition system with the kernel, the client and handlers; Lean step returns useAfterFree if a freed instance or watch is accessed.

* `Verif.Inotify.C93_safe` [PCQ]

### C94 Reference counters shared by threads: proved

Transition system with any number of threads, one step per atomic operation, any interleaving (sequentially consistent). Each thread only uses the object while it has a reference. C94_references and C94_done: the effect of every step on the references of threads; calls get done without waiting.

* `Verif.Shared.C94_safe` [PCQ]
* `Verif.Shared.C94_alive` [PCQ]
* `Verif.Shared.C94_once` [PCQ]
* `Verif.Shared.C94_references` [PQ]
* `Verif.Shared.C94_done` [P]

### C95 Ints: turning a shared array to data: partial

Refuted: the function drops its reference before it copies the data, so that another thread may deallocate them in the meantime. Proved when the caller has another reference, or nobody else has one. C95_exactly: in any history the only thing which goes wrong is copying the data after everybody has dropped their references (or calling the free function which doesn't exist, for ints made without one); C95_lifetime: apart from that, the array stays as long as somebody has a reference, and its data are released or given away once.

* `Verif.Shared.C95_refuted` [P]
* `Verif.Shared.C95_safe_partial` [PCQ]
* `Verif.Shared.C95_once_partial` [PCQ]
* `Verif.Shared.C95_exactly` [PCQ]
* `Verif.Shared.C95_lifetime` [PCQ]

### C96 Ring: free functions which use the ring: partial

Refuted for drop and drop_last (also as called by set_max_size) when they don't remove everything and the free function removes something: double release, loss, division by zero. Proved (safety, exactly once, contents) for all the histories in which free functions called by a partial drop don't remove anything or add to the front, and those called by a partial drop_last don't remove anything; free functions called by clear, or by others when everything is removed, may do anything but drop the last reference. C96_recorded: what is counted as accepted and as taken is what the functions have returned. C96_drop_front_refuted: adding to the front during a partial drop.

* `Verif.RingCb.C96_drop_refuted` [PCQ]
* `Verif.RingCb.C96_drop_last_refuted` [PCQ]
* `Verif.RingCb.C96_compact_refuted` [P]
* `Verif.RingCb.C96_safe_partial` [PCQ]
* `Verif.RingCb.C96_once_partial` [PCQ]
* `Verif.RingCb.C96_inside_partial` [PCQ]
* `Verif.RingCb.C96_end_partial` [PCQ]
* `Verif.RingCb.C96_plain` [PQ]
* `Verif.RingCb.C96_recorded` [PQ]
* `Verif.RingCb.C96_no_free_function` [PQ]
* `Verif.RingCb.C96_drop_front_refuted` [PQ]

### C97 Clock notifier: lifetime: proved

Labelled transition system with the kernel (timerfd), the main loop, GObject, GSignal and GIOChannel as contracts; any failures. C97_references: the effect of every call on the references of the client.

* `Verif.TimeNotify.C97_safe` [PCQ]
* `Verif.TimeNotify.C97_shared` [PCQ]
* `Verif.TimeNotify.C97_end` [PCQ]
* `Verif.TimeNotify.C97_once` [PCQ]
* `Verif.TimeNotify.C97_references` [PCQ]

### C98 Clock notifier: handlers: partial

Refuted if the timer can't be created or reports an error (the object stays, deaf). Otherwise proved: the callback becomes due, stays due until it's called, calls the handlers exactly; at most one call per clock change holds always. C98_connected, C98_called and C98_round: which handlers are connected, and when they are called; complete effect of an iteration of the main loop if handlers just return. C98_works_exactly and C98_due_exactly: whether a clock change is noticed, and whether the callback is due, after each step.

* `Verif.TimeNotify.C98_due_partial` [PCQ]
* `Verif.TimeNotify.C98_kept_partial` [PCQ]
* `Verif.TimeNotify.C98_dispatched` [PCQ]
* `Verif.TimeNotify.C98_exact` [PCQ]
* `Verif.TimeNotify.C98_at_most` [PCQ]
* `Verif.TimeNotify.C98_refuted` [PQ]
* `Verif.TimeNotify.C98_works_exactly` [PCQ]
* `Verif.TimeNotify.C98_due_exactly` [PCQ]
* `Verif.TimeNotify.C98_connected` [PCQ]
* `Verif.TimeNotify.C98_called` [PCQ]
* `Verif.TimeNotify.C98_round` [PCQ]

### C99 Clock notifier: the timer never expires: partial

Refuted for 32-bit long with 64-bit time_t (shift count too large), proved if time_t is not longer than long. C99_exactly: right if and only if time_t is not longer than long.

* `Verif.TimeNotify.C99_exactly` [PCQ]
* `Verif.TimeNotify.C99_partial` [PCQ]
* `Verif.TimeNotify.C99_refuted` [-]

### C100 Assertions: ring: proved

Debug functions with the assertions are equal to the release ones whatever is done to the ring: if what the release build does is undefined then no assertion fails before that.

* `Verif.Ring.C100_ring` [PCQ]
* `Verif.Ring.C100_ring_rules` [PCQ]

### C101 Assertions: history: partial

Refuted: querying the size of a history with exactly one sample fails the assertion at line 142. Proved that it's the only case.

* `Verif.History.C101_refuted` [P]
* `Verif.History.C101_exactly` [PCQ]
* `Verif.History.C101_history_partial` [PCQ]

### C102 Assertions: idle queue: partial

Refuted: the assertion at line 270 fails if the destroy function of the first item being cancelled by tag empties the queue. Proved that it's the only case, and that it doesn't occur if those functions don't cancel anything and run no main loop.

* `Verif.Idle.C102_refuted` [PQ]
* `Verif.Idle.C102_exactly` [PCQ]
* `Verif.Idle.C102_queue_partial` [PCQ]

### C103 Assertions: idle pool: proved

Equality with the release build for all the reachable states of the LTS of C91 (the weakest conditions).

* `Verif.Pool.C103_pool` [PCQ]
* `Verif.Pool.C103_shared` [PCQ]

### C104 Assertions: inotify: partial

Refuted if two watches share a kernel descriptor (line 268). Proved if no file is watched twice at the same time; the parser for all sequences of events. C104_exactly: the assertion fails if and only if a watch is stopped after another one which it has been sharing the file with.

* `Verif.Inotify.C104_refuted` [PQ]
* `Verif.Inotify.C104_inotify_partial` [PCQ]
* `Verif.Inotify.C104_read` [PCQ]
* `Verif.Inotify.C104_exactly` [PCQ]

### C105 Idle pool: references to objects: proved

The LTS of the pool with a heap of reference counted objects; dropping a reference happens whenever the pool destroys an item. The rules for the pool are those of C70 (nothing is added to a pool which is being deallocated). C105_owned and C105_pool: the effect of every call on the references of the client.

* `Verif.PoolObj.C105_safe` [PCQ]
* `Verif.PoolObj.C105_refs` [PCQ]
* `Verif.PoolObj.C105_released` [PCQ]
* `Verif.PoolObj.C105_null` [PQ]
* `Verif.PoolObj.C105_returns` [PQ]
* `Verif.PoolObj.C105_given` [PCQ]
* `Verif.PoolObj.C105_drained` [PCQ]
* `Verif.PoolObj.C105_deallocated` [PCQ]
* `Verif.PoolObj.C105_owned` [PCQ]
* `Verif.PoolObj.C105_pool` [PQ]

### C106 inotify: handlers and callbacks: proved

The LTS of C73-C75 with each handler being called separately. The specification is a monitor which goes over the history and knows nothing about the state of the model. GSignal's order of calls is a contract. Descriptors aren't opened by other threads in the middle of a call (C74 is about that). C106_recorded connects calls with the history; C106_done: events get handled as long as handlers return.

* `Verif.InotifyCb.C106_safe` [PCQ]
* `Verif.InotifyCb.C106_exact` [PCQ]
* `Verif.InotifyCb.C106_events` [PCQ]
* `Verif.InotifyCb.C106_removed` [PCQ]
* `Verif.InotifyCb.C106_freed` [PCQ]
* `Verif.InotifyCb.C106_released` [PCQ]
* `Verif.InotifyCb.C106_gone` [PCQ]
* `Verif.InotifyCb.C106_created` [PCQ]
* `Verif.InotifyCb.C106_recorded` [PCQ]
* `Verif.InotifyCb.C106_done` [PCQ]

### C107 Assertions: reference counters and clock notifier: proved

The assertion and the atomic operation which follows it are separate steps of the thread, i.e. other threads may run in between. Reading from the cancelled timer returns an error: that's a contract of the kernel.

* `Verif.Shared.C107_counters` [PCQ]
* `Verif.Weak.C107_weakref` [PCQ]
* `Verif.TimeNotify.C107_timenotify` [PCQ]

### C108 Int array: several owners: proved

GArray (reference counter, block with the elements) is a contract. Functions which change the contents are represented by setting them to anything; C45-C48 and C80-C82 are about those. One thread.

* `Verif.IntArray.Ref.C108_exact` [PCQ]
* `Verif.IntArray.Ref.C108_lifetime` [PCQ]
* `Verif.IntArray.Ref.C108_freed` [PCQ]

### C109 Whole calls whose free functions add elements: partial

Proved for clear, drop and set_max_size if the free functions add only to the end of the ring, and for drop_last (not removing everything) if they add only to its front. False otherwise: drop_last releases what the free function has added to the end, and the ring may contain more than its maximum size after set_max_size. C109_clear_exactly and C109_drop_last_exactly: what is released and what stays if the free functions add to either end (clear is affected by what is added to the front).

* `Verif.RingCb.C109_max_refuted` [PQ]
* `Verif.RingCb.C109_drop_last_refuted` [PQ]
* `Verif.RingCb.C109_clear_partial` [PCQ]
* `Verif.RingCb.C109_drop_partial` [PCQ]
* `Verif.RingCb.C109_set_max_size_partial` [PCQ]
* `Verif.RingCb.C109_drop_last_partial` [PCQ]
* `Verif.RingCb.C109_clear_exactly` [PCQ]
* `Verif.RingCb.C109_drop_last_exactly` [PCQ]
* `Verif.RingCb.C109_clear_refuted` [PQ]

### C110 Notifications which use the same ids: partial

Proved if notifications leave alone the ids which are being disconnected or removed. False otherwise: the id is zeroed after the notification, so that a notification calling the same function disconnects (removes) the same thing again, and an id which the notification stores in the same place gets lost. C110_exactly: whatever notifications do, nothing else can go wrong at once than that second disconnection (removal) of an id which has not been replaced; C110_lost_exactly and C110_source_lost_exactly: an id is lost exactly when the notification which has replaced it returns.

* `Verif.MiscCb.C110_disconnect_refuted` [PQ]
* `Verif.MiscCb.C110_clear_refuted` [PQ]
* `Verif.MiscCb.C110_handler_lost_refuted` [PCQ]
* `Verif.MiscCb.C110_source_lost_refuted` [PCQ]
* `Verif.MiscCb.C110_safe_partial` [PCQ]
* `Verif.MiscCb.C110_exact_partial` [PCQ]
* `Verif.MiscCb.C110_once_partial` [PCQ]
* `Verif.MiscCb.C110_disconnect_partial` [PCQ]
* `Verif.MiscCb.C110_clear_partial` [PCQ]
* `Verif.MiscCb.C110_exactly` [PCQ]
* `Verif.MiscCb.C110_once` [PCQ]
* `Verif.MiscCb.C110_lost_exactly` [PCQ]
* `Verif.MiscCb.C110_source_lost_exactly` [PCQ]

### C111 Finalizers which use object vectors: partial

Proved if finalizers leave alone the vector which is being changed (or freed). False otherwise: references are dropped before the vector is updated, so that a finalizer copying the vector brings back a dead object, and if it adds something to the vector then the function goes on with released memory. C111_contents_exactly, C111_copy_exactly and C111_add_exactly say that this is so in each program and at each moment when a finalizer is running.

* `Verif.ObjvCb.C111_copy_refuted` [PQ]
* `Verif.ObjvCb.C111_add_refuted` [PQ]
* `Verif.ObjvCb.C111_safe_partial` [PCQ]
* `Verif.ObjvCb.C111_exact_partial` [PCQ]
* `Verif.ObjvCb.C111_meantime_partial` [PCQ]
* `Verif.ObjvCb.C111_once_partial` [PCQ]
* `Verif.ObjvCb.C111_done_partial` [PCQ]
* `Verif.ObjvCb.C111_contents_exactly` [PCQ]
* `Verif.ObjvCb.C111_copy_exactly` [PCQ]
* `Verif.ObjvCb.C111_add_exactly` [PCQ]

### C112 Log functions which use the log: proved

What a single message results in is the subject of C58, C59 and C86-C88. The limits are those of C62 and C87 (dumps of 4 GiB, long timestamps). Time doesn't pass: timestamps don't change. C112_recorded connects calls with the history.

* `Verif.LogCb.C112_safe` [PCQ]
* `Verif.LogCb.C112_history` [PCQ]
* `Verif.LogCb.C112_finish` [PCQ]
* `Verif.LogCb.C112_recorded` [PQ]

### C113 Log used by several threads: partial

Not every change of configuration is safe: gutil_log_func2 and log_proc are read twice (compared with NULL and then called), and gutil_log_set_timestamp_format frees the string which other threads may be using, hence C113_safe_partial and the three refutations. C113_moment_refuted: what's logged during a change may be a mixture of the old and the new configuration. C113_level_refuted: a message may be lost while the level is being changed although it's to be logged both before and after that, because the level is read twice. Single reads and writes of variables are assumed to be atomic and to happen in program order, see DESIGN.md; formally these are data races in C11. C113_recorded connects calls with the history. C113_exactly says that, whatever is changed and when, a thread only fails by calling a log function which was set to NULL during the thread's own call, or by using the format which was replaced during it; what happens during calls of other threads doesn't matter.

* `Verif.LogThreads.C113_message` [PCQ]
* `Verif.LogThreads.C113_once` [PCQ]
* `Verif.LogThreads.C113_recorded` [PQ]
* `Verif.LogThreads.C113_func` [PCQ]
* `Verif.LogThreads.C113_func2` [PCQ]
* `Verif.LogThreads.C113_undisturbed` [PQ]
* `Verif.LogThreads.C113_safe_partial` [PCQ]
* `Verif.LogThreads.C113_finish` [PCQ]
* `Verif.LogThreads.C113_func2_null_refuted` [P]
* `Verif.LogThreads.C113_proc_null_refuted` [PQ]
* `Verif.LogThreads.C113_format_refuted` [P]
* `Verif.LogThreads.C113_moment_refuted` [PQ]
* `Verif.LogThreads.C113_exactly` [PCQ]
* `Verif.LogThreads.C113_wanted` [PCQ]
* `Verif.LogThreads.C113_level_refuted` [PQ]

### C114 Lifetime of the idle queue: proved

Dropping the last reference in a callback of the queue is excluded, see C69. The number of references isn't limited, i.e. overflow of the 32-bit counter is excluded.

* `Verif.Idle.C114_counted` [PQ]
* `Verif.Idle.C114_alive` [PCQ]
* `Verif.Idle.C114_gone` [PCQ]
* `Verif.Idle.C114_not_run` [PQ]

### C115 Int array: reserved size: partial

The size is multiplied by the size of an element, and once more by GLib: four times as much memory as necessary is allocated, and the program is aborted by GLib for more than a quarter of what could be stored (refuted); otherwise proved. The limit is a parameter since it depends on the version of GLib. C115_exactly covers all the sizes.

* `Verif.IntArray.C115_refuted` [PQ]
* `Verif.IntArray.C115_room_refuted` [PQ]
* `Verif.IntArray.C115_partial` [PQ]
* `Verif.IntArray.C115_exactly` [PQ]

### C116 Lifetime of the idle pool: proved

Proved for pools created by gutil_idle_pool_new and by gutil_idle_pool_get; sources of threads with their own main context may outlive their items (C91), hence the hypothesis of C116_gone.

* `Verif.Pool.C116_alive` [PCQ]
* `Verif.Pool.C116_exists` [PCQ]
* `Verif.Pool.C116_gone` [PCQ]

### C117 Default idle pools of threads: partial

Proved, except that the pool isn't deallocated, and nothing is destroyed, when the thread exits with something in the pool which waits for the main loop: the idle source has a reference too (C117_exit_refuted, for every such state). C117_exit_partial: what happens if nothing else refers to the pool. The pools are the ones of C70-C72, C91; GPrivate is a contract. C117_recorded and C117_pools connect calls with the history. C117_exit_exactly covers every exit: the pool is deallocated if nothing else refers to it, otherwise nothing changes except for the number of references.

* `Verif.PoolDefault.C117_safe` [PCQ]
* `Verif.PoolDefault.C117_same` [PCQ]
* `Verif.PoolDefault.C117_others` [PCQ]
* `Verif.PoolDefault.C117_new` [PCQ]
* `Verif.PoolDefault.C117_alive` [PCQ]
* `Verif.PoolDefault.C117_add` [PCQ]
* `Verif.PoolDefault.C117_drain` [PCQ]
* `Verif.PoolDefault.C117_exit_partial` [PCQ]
* `Verif.PoolDefault.C117_exit_refuted` [PCQ]
* `Verif.PoolDefault.C117_recorded` [PQ]
* `Verif.PoolDefault.C117_pools` [PCQ]
* `Verif.PoolDefault.C117_exit_exactly` [PCQ]

### C118 Int array: histories of calls: proved

Refinement of the calls to lists (Spec/IntArray.lean). What happens without the rules is in C45-C48, C80 and C82.

* `Verif.IntArray.C118_list` [PCQ]

### C119 String vectors: histories of calls: proved

Any number of vectors and strings in one heap; refinement to lists of strings, and accounting of all allocated strings. The rules (Spec.Pre) exclude removing all strings equal to an element of the same vector (C31_refuted) and searching vectors which are not sorted. Vectors are shorter than 2^31 elements; the arrays of pointers themselves are values.

* `Verif.Strv.C119_histories` [PCQ]
* `Verif.Strv.C119_nothing_left` [PCQ]

### C120 Ring: lifetime of the flattened block: proved

Proved for all histories, also those which add elements after an earlier flatten (if they are defined). The same block: the number of blocks allocated so far does not change, and neither do its contents.

* `Verif.Ring.C120_block_stays` [PCQ]

### C121 Idle pool: main loop run by another thread: partial

Memory safety, order and lifetime are proved for every interleaving. The last sentence is false: if the source is dispatched after it has been attached but before its id is stored then nothing is scheduled anymore, no matter how much is added (C121_stuck_refuted); otherwise adding schedules a source if there are none (C121_scheduled_partial); draining always repairs that (C121_drain). g_source_remove can be given an id of a source which is gone (C121_critical_refuted), and items may have no source even if that isn't the case (C121_pending_refuted). C121_stale_exactly, C121_exactly and C121_critical_exactly say when exactly that happens, and when g_source_remove complains.

* `Verif.PoolThreads.C121_safe` [PCQ]
* `Verif.PoolThreads.C121_items` [PCQ]
* `Verif.PoolThreads.C121_alive` [PCQ]
* `Verif.PoolThreads.C121_added` [PCQ]
* `Verif.PoolThreads.C121_wrong_thread` [PCQ]
* `Verif.PoolThreads.C121_stuck_refuted` [PCQ]
* `Verif.PoolThreads.C121_scheduled_partial` [PCQ]
* `Verif.PoolThreads.C121_drain` [PCQ]
* `Verif.PoolThreads.C121_critical_refuted` [PQ]
* `Verif.PoolThreads.C121_pending_refuted` [PQ]
* `Verif.PoolThreads.C121_stale_exactly` [PCQ]
* `Verif.PoolThreads.C121_exactly` [PCQ]
* `Verif.PoolThreads.C121_critical_exactly` [PCQ]

### C122 Logging macros: partial

False if an expression which may be left out has side effects (refuted); proved of all other programs. Arguments of messages and assertions may be left out, and so may be the second argument of GVERIFY_EQ and friends. C122_both_levels combines that with the levels set at run time.

* `Verif.LogMacros.C122_builds_partial` [PCQ]
* `Verif.LogMacros.C122_refuted` [PCQ]
* `Verif.LogMacros.C122_default` [PQ]
* `Verif.LogMacros.C122_both_levels` [PCQ]

### C123 Weak references shared by threads: proved

Proved for every interleaving. The functions of GLib (GWeakRef, reference counters) are single steps, gutil_weakref_unref is three.

* `Verif.WeakThreads.C123_safe` [PCQ]
* `Verif.WeakThreads.C123_get` [PCQ]
* `Verif.WeakThreads.C123_weak` [PCQ]
* `Verif.WeakThreads.C123_alive` [PCQ]
* `Verif.WeakThreads.C123_quiet` [PCQ]
* `Verif.WeakThreads.C123_recorded` [PQ]

### C124 Int array: adding its own elements: partial

False: if the memory has to be reallocated then the values are read after they have been released (refuted for every full array), and if there's enough memory then other elements are inserted instead of those which are after that position (refuted). C124_exactly and C124_beyond_exactly tell what happens in each case. Proved of values which are elsewhere (C124_other), and of those before the position if there's enough memory (C124_before_partial). C124_reserved_exactly says how much memory gutil_int_array_sized_new reserves, C124_reserved_partial is an application.

* `Verif.IntArray.Self.C124_other` [PQ]
* `Verif.IntArray.Self.C124_before_partial` [PQ]
* `Verif.IntArray.Self.C124_exactly` [PQ]
* `Verif.IntArray.Self.C124_full_refuted` [PQ]
* `Verif.IntArray.Self.C124_after_refuted` [-]
* `Verif.IntArray.Self.C124_beyond_exactly` [PQ]
* `Verif.IntArray.Self.C124_reserved_exactly` [P]
* `Verif.IntArray.Self.C124_reserved_partial` [PCQ]

### C125 How many references there may be: partial

True of less than 2^32 references at a time (C125_partial). False of more: the counter is a 32-bit number which wraps around, so the object is deallocated whenever dropping a reference leaves a multiple of 2^32 of them (C125_refuted, C125_exactly). In debug builds assertions fail from 2^31 references on (C125_assertions). The other models have unbounded counters.

* `Verif.Counter32.C125_partial` [PQ]
* `Verif.Counter32.C125_refuted` [PQ]
* `Verif.Counter32.C125_exactly` [PQ]
* `Verif.Counter32.C125_assertions` [PCQ]

### C126 Structures from the addresses of their fields: proved

Layout of structures (each field at the first suitable offset) is a contract of the ABI. Fields of zero size, and bit fields, are not covered by C126_exactly.

* `Verif.Macros.C126_back` [P]
* `Verif.Macros.C126_only` [P]
* `Verif.Macros.C126_exactly` [PQ]

### C127 Threads and the timestamp format: partial

Model/LogFormat.lean splits gutil_log_set_timestamp_format and the use of the format by gutil_log_stdio into accesses to one variable (or to the memory it points to) each, interleaved in any order. The full statement is false: C127_reader_refuted (a message being logged uses freed memory if the format is set meanwhile; with NULL even a message which begins after the old format has been freed, because src/gutil_log.c:575 frees it before lines 576-577 forget it) and C127_setters_refuted (calls which set the format at the same time free memory twice, use freed memory, and leak). C127_serial_safe_partial, C127_memory, C127_quiet: what's true if calls which set the format don't overlap each other. C127_any, C127_known: what's true in any case. Missing: an exact description of the schedules which fail in terms of calls (it depends on steps within calls, all that is observable is that they overlap).

* `Verif.LogFormat.C127_serial_safe_partial` [PCQ]
* `Verif.LogFormat.C127_quiet` [PCQ]
* `Verif.LogFormat.C127_memory` [PCQ]
* `Verif.LogFormat.C127_any` [PCQ]
* `Verif.LogFormat.C127_known` [PCQ]
* `Verif.LogFormat.C127_reader_refuted` [PQ]
* `Verif.LogFormat.C127_setters_refuted` [PQ]

### C128 Logging without any configuration: proved

Model/LogDefine.lean has the macros which define modules and dump data; the rest is Model/Log.lean from the initial values of its variables. C128_module, C128_default: what's printed; C128_level: the default level; C128_dump: the macros. Cycles of parents are excluded (`rank`), with them the recursion never ends.

* `Verif.LogDefine.C128_module` [PCQ]
* `Verif.LogDefine.C128_default` [PCQ]
* `Verif.LogDefine.C128_level` [PCQ]
* `Verif.LogDefine.C128_dump` [PQ]

### C129 An idle queue which another thread adds to: partial

Model/IdleThreads.lean has one access to a field of the queue or of an item per step. C129_safe_partial, C129_order_partial and C129_run_partial assume that the thread and the main loop don't overlap (`Apart`); C129_once holds for any interleaving. False in general: C129_stuck_refuted (nothing is run after the source was dispatched before its id was stored), C129_lost_refuted, C129_freed_refuted, C129_null_refuted. One thread which adds things; nothing is cancelled there and the queue isn't deallocated.

* `Verif.IdleThreads.C129_safe_partial` [PCQ]
* `Verif.IdleThreads.C129_order_partial` [PCQ]
* `Verif.IdleThreads.C129_run_partial` [PCQ]
* `Verif.IdleThreads.C129_once` [PCQ]
* `Verif.IdleThreads.C129_stuck_refuted` [PQ]
* `Verif.IdleThreads.C129_lost_refuted` [PQ]
* `Verif.IdleThreads.C129_freed_refuted` [PQ]
* `Verif.IdleThreads.C129_null_refuted` [PQ]

### C130 An idle queue whose last reference is dropped by another thread: partial

Model/IdleRelease.lean adds gutil_idle_queue_unref, by the thread, to the model of C129. C130_safe_partial, C130_end_partial and C130_finish_partial assume that the thread and the main loop don't overlap (`Apart`). False in general: C130_freed_refuted (the main loop uses the queue after it was deallocated), C130_twice_refuted (the destroy function is called by both, and the item is freed twice).

* `Verif.IdleRelease.C130_safe_partial` [PCQ]
* `Verif.IdleRelease.C130_end_partial` [PCQ]
* `Verif.IdleRelease.C130_finish_partial` [PCQ]
* `Verif.IdleRelease.C130_freed_refuted` [PQ]
* `Verif.IdleRelease.C130_twice_refuted` [PQ]

### C131 The logging macros are portable: partial

Model/LogPortable.lean is the variant of the macros without GLOG_VARARGS. C131_builds_partial says what any build does, C131_same_partial compares it with gcc; both assume that GLOG_LEVEL_MAX is at least GLOG_LEVEL_DEBUG. False in general: C131_compile_refuted (exactly when it doesn't compile: GLOG_VA_NONE_ isn't defined), C131_names_refuted, C131_args_refuted, C131_empty_refuted.

* `Verif.LogPortable.C131_builds_partial` [PCQ]
* `Verif.LogPortable.C131_same_partial` [PQ]
* `Verif.LogPortable.C131_compile_refuted` [PQ]
* `Verif.LogPortable.C131_names_refuted` [P]
* `Verif.LogPortable.C131_args_refuted` [P]
* `Verif.LogPortable.C131_empty_refuted` [P]

### C132 Adding to a ring takes amortised constant time: partial

Model/RingCost.lean has the functions of Model/Ring.lean with counters of what's passed to memcpy and of allocated blocks; C132_counted says that they are otherwise the same. C132_amortised_partial assumes that gutil_ring_set_max_size, gutil_ring_compact, gutil_ring_reserve and gutil_ring_flatten aren't called; C132_compact_refuted and C132_limit_refuted have sequences of any length (up to 2^20 elements) which take quadratic time. Assignments of single elements aren't counted (one per call).

* `Verif.RingCost.C132_counted` [PQ]
* `Verif.RingCost.C132_amortised_partial` [PCQ]
* `Verif.RingCost.C132_compact_refuted` [PCQ]
* `Verif.RingCost.C132_limit_refuted` [PCQ]

### C133 Encoding what has been decoded: partial

C133_unsigned_partial, C133_signed_partial, C133_tlv_partial and C133_sequence_partial say exactly when the bytes are the same (`Short`, `SShort`, `ShortTlv`, `ShortSeq` in Spec/DatapackShort.lean), and that what's encoded is never longer. C133_unsigned_refuted: every number of less than 64 bits has at least two encodings. TLVs with an impossible length (C12) are excluded. tlvsEncode in Model/DatapackSeq.lean calls gutil_tlv_encode for each one.

* `Verif.Datapack.C133_unsigned_partial` [PCQ]
* `Verif.Datapack.C133_unsigned_refuted` [PCQ]
* `Verif.Datapack.C133_signed_partial` [PCQ]
* `Verif.Datapack.C133_tlv_partial` [PCQ]
* `Verif.Datapack.C133_sequence_partial` [PCQ]

### C134 Accuracy of averages: partial

C134_accuracy_partial: less than 3/2 (`Near` in Spec/HistoryMean.lean). C134_refuted: 0, 1, 2, 1 give 0 although the average is 7/6. C134_bound_refuted: for any duration D there is a history with an error of 3/2 - 1/D. C134_shift_refuted: adding a constant to the samples doesn't add it to the result, because truncation depends on the sign. Overflows are those of C27.

* `Verif.History.C134_accuracy_partial` [PCQ]
* `Verif.History.C134_refuted` [P]
* `Verif.History.C134_bound_refuted` [PCQ]
* `Verif.History.C134_shift_refuted` [P]

### C135 Averages and values: proved

C135_larger_values, C135_opposite_values, C135_any_time are about pairs of runs of the model. Overflows are those of C27 (`RunFits`); C135_any_time doesn't exclude them.

* `Verif.History.C135_larger_values` [PCQ]
* `Verif.History.C135_opposite_values` [PCQ]
* `Verif.History.C135_any_time` [PCQ]

### C136 Truncated data: proved

C136_unsigned, C136_signed, C136_tlv are about single items, C136_numbers about numbers which are decoded until that fails (unsignedsDecode in Model/DatapackStream.lean calls the decoder of the library), C136_sequence about gutil_tlvs_decode.

* `Verif.Datapack.C136_unsigned` [PCQ]
* `Verif.Datapack.C136_signed` [PCQ]
* `Verif.Datapack.C136_tlv` [PCQ]
* `Verif.Datapack.C136_numbers` [PCQ]
* `Verif.Datapack.C136_sequence` [PCQ]

### C137 Parsing of printed numbers: proved

C137_roundtrip. What's printed is defined in Spec/Print.lean. White space is that of g_ascii_isspace, without the vertical tab (see C52).

* `Verif.Parse.C137_roundtrip` [PCQ]

### C138 Dumps can be read: proved

C138_read is the reader of a line (Spec/HexRead.lean), C138_line and C138_dump compare what's shown, also in different locales. isprint has to accept the bytes, as in C62.

* `Verif.Misc.C138_read` [PCQ]
* `Verif.Misc.C138_line` [PCQ]
* `Verif.Log.C138_dump` [PCQ]

### C139 Looking at the history: partial

C139_looking_partial: clocks which don't go back, as long as nothing overflows (see C27); C139_refuted: a history whose clock goes back.

* `Verif.History.C139_refuted` [P]
* `Verif.History.C139_looking_partial` [PCQ]

### C140 Changes of log levels: proved

C140_lower and C140_others are about pairs of configurations (`Quieter` and `SameFamily` in Spec/LogLaws.lean).

* `Verif.Log.C140_lower` [PCQ]
* `Verif.Log.C140_others` [P]

### C141 Sorting makes the order irrelevant: proved

C141_strings, C141_directions and C141_numbers. qsort and g_array_sort are any functions which fulfil their contracts (see C34 and C48).

* `Verif.Strv.C141_strings` [PCQ]
* `Verif.Strv.C141_directions` [PCQ]
* `Verif.IntArray.C141_numbers` [PCQ]

### C142 Strings which stand for the same number: partial

C142_blanks, C142_case and C142_base hold for all strings; C142_agree_partial is about strings without minus, C142_refuted about minus zero.

* `Verif.Parse.C142_blanks` [PQ]
* `Verif.Parse.C142_case` [PCQ]
* `Verif.Parse.C142_base` [PQ]
* `Verif.Parse.C142_agree_partial` [PCQ]
* `Verif.Parse.C142_refuted` [P]

### C143 A ring seen from its other end: partial

C143_mirror_partial: histories as in C17, unless the maximum size is lowered so that elements are dropped; the order of releasing is open. C143_refuted and C143_refuted_by_limit are about these.

* `Verif.Ring.C143_mirror_partial` [PCQ]
* `Verif.Ring.C143_refuted` [P]
* `Verif.Ring.C143_refuted_by_limit` [P]

### C144 Decoding depends only on the bytes which are decoded: proved

C144_unsigned, C144_signed, C144_tlv. Decoded means that the decoder succeeded; incomplete data is C136.

* `Verif.Datapack.C144_unsigned` [PCQ]
* `Verif.Datapack.C144_signed` [PCQ]
* `Verif.Datapack.C144_tlv` [PCQ]

### C145 Laws of concatenation and exclusive or: partial

C145_xor_partial and C145_concat_partial: with the conditions of C55. C145_refuted: what happens without them in the strict reading of the standard.

* `Verif.Misc.C145_xor_partial` [PCQ]
* `Verif.Misc.C145_concat_partial` [PCQ]
* `Verif.Misc.C145_refuted` [PQ]

### C146 Several log options: partial

C146_options_partial: all modules have names, as in C60. C146_refuted: what happens if one has none.

* `Verif.Log.C146_options_partial` [PCQ]
* `Verif.Log.C146_refuted` [P]

### C147 Changes of an array of ints can be undone: proved

C147_undo, as long as the number of ints is a guint.

* `Verif.IntArray.C147_undo` [PQ]

### C148 Parts of parts of blocks of ints: partial

C148_parts_partial: offset + count and the sum of offsets are guints, as in C40. C148_refuted: what happens otherwise.

* `Verif.Ints.C148_parts_partial` [PCQ]
* `Verif.Ints.C148_refuted` [P]

### C149 Changes of a string vector can be undone or repeated: proved

C149_undo, C149_undo_value, C149_dups_twice, C149_dups_absorb. The vector owns its strings, as in C29.

* `Verif.Strv.C149_undo` [PCQ]
* `Verif.Strv.C149_undo_value` [PCQ]
* `Verif.Strv.C149_dups_twice` [PCQ]
* `Verif.Strv.C149_dups_absorb` [PCQ]

### C150 Cancelled items of an idle queue leave no trace: partial

C150_no_trace_partial: there are other items, or it's done outside of callbacks. C150_refuted: inside of a callback of the only item.

* `Verif.Idle.C150_no_trace_partial` [PCQ]
* `Verif.Idle.C150_refuted` [PQ]

### C151 The order of TLVs doesn't matter: proved

C151_order: the two sequences may be decoded with different flags. C151_concat: no expected tag is repeated, as in C14.

* `Verif.Datapack.C151_order` [PCQ]
* `Verif.Datapack.C151_concat` [PCQ]

### C152 The memory of a ring can't be noticed: partial

C152_memory_partial, C152_undo_partial: the histories of C17, the limit is respected in the beginning and never lowered. C152_refuted, C152_refuted_by_lowering: what happens otherwise. C152_refuted_by_reserve: reserve itself may return something else.

* `Verif.Ring.C152_memory_partial` [PCQ]
* `Verif.Ring.C152_undo_partial` [PCQ]
* `Verif.Ring.C152_refuted` [P]
* `Verif.Ring.C152_refuted_by_lowering` [P]
* `Verif.Ring.C152_refuted_by_reserve` [P]

### C153 Laws of hexadecimal strings: proved

C153_encode, C153_decode, C153_order.

* `Verif.Misc.C153_encode` [PQ]
* `Verif.Misc.C153_decode` [PCQ]
* `Verif.Misc.C153_order` [PQ]

### C154 Changes of an object vector can be undone: proved

C154_undo, C154_put_back. There's a reference for each object in the vector, as in C37.

* `Verif.Objv.C154_undo` [PCQ]
* `Verif.Objv.C154_put_back` [PCQ]

### C155 The order of encoded numbers: proved

C155_unsigned, C155_fixed, C155_signed.

* `Verif.Datapack.C155_unsigned` [PCQ]
* `Verif.Datapack.C155_fixed` [PCQ]
* `Verif.Datapack.C155_signed` [PCQ]

### C156 The order of blocks of ints: partial

C156_order_partial: non-negative ints on a big-endian machine. C156_refuted: it's not the case for negative ints, nor on little-endian machines. C156_exactly: what is compared there.

* `Verif.Ints.C156_exactly` [PCQ]
* `Verif.Ints.C156_order_partial` [PCQ]
* `Verif.Ints.C156_refuted` [P]

### C157 Skipping several prefixes: proved

C157_sequence, C157_repeat, C157_empty. The pointers are those which memcmp accepts, as in C56.

* `Verif.Misc.C157_sequence` [PCQ]
* `Verif.Misc.C157_repeat` [PCQ]
* `Verif.Misc.C157_empty` [PCQ]

### C158 Events may be read in portions: proved

C158_split, C158_possible.

* `Verif.Inotify.C158_split` [PCQ]
* `Verif.Inotify.C158_possible` [PCQ]

### C159 A larger history remembers more: partial

C159_larger_partial: the clock never goes backwards. C159_refuted: what may happen otherwise.

* `Verif.History.C159_larger_partial` [PCQ]
* `Verif.History.C159_refuted` [P]

### C160 Removing all and removing one at a time: proved

C160_strings: the string which is searched for doesn't belong to the vector (for those which do, see C31). C160_objects.

* `Verif.RemoveEach.C160_strings` [PCQ]
* `Verif.RemoveEach.C160_objects` [PCQ]

### C161 The limit of a ring can't be noticed until it's reached: partial

C161_limit_partial: the histories of C17, the limit isn't changed, and no more is reserved in the beginning than the lower limit allows. C161_refuted: otherwise the ring with the higher limit may be the one which is full.

* `Verif.Ring.C161_limit_partial` [PCQ]
* `Verif.Ring.C161_refuted` [P]

### C162 Cancelling everything and cancelling each item: proved

C162_each.

* `Verif.Idle.C162_each` [PCQ]

### C163 Only the strings of a string vector matter: proved

C163_contents: the histories of C119. C163_search: why binary search is excluded.

* `Verif.Strv.C163_contents` [PCQ]
* `Verif.Strv.C163_search` [PQ]

### C164 Prefixes of prefixes and suffixes of suffixes: partial

C164_prefixes_partial, C164_suffixes_partial, C164_split_partial: unless the data pointer of an empty block is NULL and memcmp is as strict as the C standard allows (C164_refuted).

* `Verif.Misc.C164_prefixes_partial` [PQ]
* `Verif.Misc.C164_suffixes_partial` [PCQ]
* `Verif.Misc.C164_split_partial` [PCQ]
* `Verif.Misc.C164_refuted` [-]

### C165 Adding several strings, and stripping: proved

C165_several, C165_strip.

* `Verif.Strv.C165_several` [PCQ]
* `Verif.Strv.C165_strip` [PCQ]

### C166 Events of other files don't matter: proved

C166_own, C166_others: a watch is the one which the table of watches has for the descriptor (not the case if another watch was created for the same file later, see C73).

* `Verif.Inotify.C166_own` [PCQ]
* `Verif.Inotify.C166_others` [PCQ]

### C167 Different ways to make the same object vector: proved

C167_append (of another vector, see C38), C167_new, C167_copy.

* `Verif.Objv.C167_append` [PCQ]
* `Verif.Objv.C167_new` [PCQ]
* `Verif.Objv.C167_copy` [PCQ]

### C168 Several ints at once and one at a time: proved

C168_adding, C168_removing, C168_new.

* `Verif.IntArray.C168_adding` [PCQ]
* `Verif.IntArray.C168_removing` [PQ]
* `Verif.IntArray.C168_new` [PQ]

### C169 Only the samples of a history matter: proved

C169_samples, C169_clear. The clock is as in C27, and the maximum size is at most 2^30 or the size is not asked for (SizeOk).

* `Verif.History.C169_samples` [PCQ]
* `Verif.History.C169_clear` [PCQ]

### C170 Elements of a ring may be dropped in several steps: partial

C170_drop_partial, C170_drop_last_partial, C170_clear_partial, C170_refuted. Partial: the histories are those of C17, and if dropping the newest elements leaves nothing in the ring, then they are released in another order than if they are dropped in several steps (C170_refuted); they are still the same elements.

* `Verif.Ring.C170_drop_partial` [PCQ]
* `Verif.Ring.C170_drop_last_partial` [PCQ]
* `Verif.Ring.C170_refuted` [P]
* `Verif.Ring.C170_clear_partial` [PCQ]

### C171 Only the elements of a ring matter: partial

C171_elements_partial, C171_refuted. Partial: the histories are those of C17, the limit is never lowered, and no more is reserved in the beginning than the limit allows (C171_refuted shows that this is necessary).

* `Verif.Ring.C171_elements_partial` [PCQ]
* `Verif.Ring.C171_refuted` [P]

### C172 The order of cancelling does not matter: proved

C172_order.

* `Verif.Idle.C172_order` [PCQ]

### C173 The order of removals does not matter: partial

C173_ints_partial, C173_strings, C173_objects, C173_refuted. Partial: arrays of more than 2^31 ints (C46), of which that is not true (C173_refuted).

* `Verif.RemoveEach.C173_ints_partial` [PCQ]
* `Verif.RemoveEach.C173_refuted` [PCQ]
* `Verif.RemoveEach.C173_strings` [PCQ]
* `Verif.RemoveEach.C173_objects` [PCQ]
