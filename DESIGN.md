# Formal model of Figment in Lean 4: design

The code modelled is SergioBenitez/Figment 0.10.19 at the pinned commit in `/repo` (text only; it is never built here).
The model and all proofs are in `lean/Verif/`. `properties.jsonl` lists the properties, `MANIFEST.json` maps them to
theorems, `seeded/LOG.jsonl` lists the wrong programs the theorems were tried against.

## Layout

* `Verif/Base/*`  – strings as lists of characters, decimal numbers, ordered maps (`BTreeMap`) as association lists,
  `std::path`; their lemmas.
* `Verif/Model/*` – the model, one or more files per source file of the crate. Every definition cites file and lines.
* `Verif/Spec/*`  – small specifications written without reference to the model's algorithms.
* `Verif/Lemmas/*` – helper lemmas.
* `Verif/Props/*` – the property theorems and, next to each, examples showing that its hypotheses can be met.

## How the code is represented

* `String`/`&str` → `List Char` (`Str`). Where byte offsets matter (`escape`, `Env::prefixed`) UTF-8 lengths are modelled.
* `BTreeMap<K,V>` → association list kept sorted by `insert`; the invariant (`Sorted`, `Value.WF`) is a separate
  predicate, proved to be kept by every operation. Theorems that need it have it as a hypothesis about input data: every
  real `BTreeMap` satisfies it.
* `Value` → inductive type, same constructors, `Dict`/`Vec` as lists.
* `Tag(u64)` → `BitVec 64` with the code's shifts and masks.
* machine integers → `BitVec` of the width of their Rust type; `usize`/`isize` are 64 bits wide.
* floats → bit patterns (`BitVec 32/64`). IEEE comparison is modelled; text parsing and int→float and f64→f32
  conversions are parameters (`FloatOps`): theorems hold for every choice, but those of C33 and C80 – C82, which are about
  `std`'s (`FloatOps.std` in `Model/Float`: rounding to the nearest, as documented).
* text of floats and of quoted strings in messages → parameters (`TextOps`), theorems hold for every choice.
* `Result`, `Option` → `Except`, `Option`; a panic is an explicit outcome.
* `&mut self` → returns the new value. Loops → structural recursion over the list iterated, or fuel with a proof that
  the fuel suffices.
* the global tag counter → part of a state threaded through; a program is a list of steps of a process that has running
  `provide` calls and finished figments (`Model/Process`). A step starts, goes on with or ends one call, so every list of
  steps is an interleaving of threads: the only shared state is the atomic counter.
* `Provider` → a record of the four results of the trait's methods.
* serde → `Ser` (the serde data model, what a `Serialize` impl tells the serializer), `Visitor` (a record of functions)
  and `Ty`, a universe of types with what their `Serialize` and `Deserialize` impls do (`Model/Types`).
* environment, file system, working directory, format parsers → parameters.

## What is modelled

| source file | model | modelled |
|---|---|---|
| `coalesce.rs` | `Model/Coalesce` | all |
| `figment.rs` | `Model/Figment`, `Process`, `Extract` | all public functions; `Provider for Figment` |
| `provider.rs` | `Model/Figment` | the trait, its default methods, `(Profile/&str, V)` pairs (through `Serialized`), `&T` |
| `profile.rs` | `Model/Profile`, `ProfileSerde`, `Env` (`from_env`) | all |
| `metadata.rs` | `Model/Metadata`, `Display` | all but `Debug` |
| `error.rs` | `Model/Error`, `Display` | all but `Debug` |
| `value/value.rs` | `Model/Value`, `Num`, `NumParse`, `Float`, `Find` | all but `Debug` |
| `value/tag.rs` | `Model/Tag`, `Types` | all but `Debug` |
| `value/ser.rs` | `Model/Ser`, `Types` | all |
| `value/de.rs` | `Model/De`, `Types` | all; `size_hint` is not (capacity only) |
| `value/magic.rs` | `Model/Magic`, `De`, `Types`, `Either` | `RelativePathBuf`, `Tagged`, `Either` and the `deserialize_from` functions; the expanded derives are `Ty.relPath` and `Ty.tagged` |
| `value/parse.rs`, `value/escape.rs` | `Model/Parse`, `NumParse` | all |
| `providers/env.rs` | `Model/Env` | all but `Debug` |
| `providers/serialized.rs` | `Model/Ser` | all |
| `providers/data.rs` | `Model/DataProvider`, `Document`, `Asking` | `Data<F>` for any format, and formats that read a tree (`Doc`) with serde; from text to tree is a parameter |
| `util.rs` | `Model/Paths`, `Find`, `Types` | `diff_paths`, `nest`, `bool_from_str_or_int`, `vec_tuple_map`; not the macros |
| `jail.rs` | `Model/Jail` | all operations, `Drop` and the removal of the directory, the lock and threads; files by the place their path leads to, with their contents as text; no links, no directories |

## What is not modelled

* TOML/JSON/YAML parsers: parameters, from text to a tree of what serde is told (`Doc`).
* `Debug` output, `size_hint`, `cloneable_fn_trait!`, `map!`, re-exports.
* Allocation, stack depth (parsing or merging deeply nested data recurses; the stack may overflow in the code).
* Windows path prefixes; non-Unicode OS strings (taken after `to_string_lossy`), links in the file system; changes of a
  file while it is being read, and of the environment while it is being listed (C78 has all others).
* Length hints of `Serialize` implementations (`value/ser.rs` reserves that much memory at once, and so panics or aborts
  for absurd ones) and of formats.
* YAML merge keys (`YamlExtended` calls `serde_yaml::Value::apply_merge`): part of the parser.
* Contents of `Location`.
* serde features outside of the universe `Ty`: `alias`, borrowed strings and byte
  slices. `Ty` has: booleans, all integers, floats, chars, strings, paths,
  unit, unit structs, options, newtypes, sequences, tuples, tuple structs, maps with keys of any of these types, structs (with defaults and
  `deny_unknown_fields`), enums with all four kinds of variants, and the crate's `Value`, `Tag`, `Tagged`,
  `RelativePathBuf`, `bool_from_str_or_int` and `vec_tuple_map` fields, types parsed from text and types converted from
  another type (`try_from`, `from`), with any parser and conversion, and the type of any data (serde's `Content`). An
  untagged enum is a conversion of the latter; which variant it is, is up to the conversion: serde reads the variants from
  its own buffer, without the crate. A struct with flattened fields (`flat`) has its other fields, and a conversion that
  makes the flattened ones of all other entries, taken as they are: so does serde, from its own buffer, without the
  crate. An internally tagged enum is the same, without other fields, when it is read from a dictionary.
  `is_human_readable` is taken to be true (the code
  flips its answer at each question to one deserialiser; the types above ask at most once). `Either` and `Profile` are modelled beside it.

## Trusted base

* Lean's kernel.
* Axioms. Every theorem in `MANIFEST.json` depends on at most `propext`, `Classical.choice` and `Quot.sound`. Of those,
  `C12_last_select`, `C34_hex_number`, `C43_number` and `C51_equality` depend on none; `C23_find`, `C32_clean`, `C43_float`, `C44_num`, `C48_count`,
  `C48_chain`, `C70_source` on `propext` only; `C12_select`, `C23_find_cases`, `C24_nest_cases`, `C34_unique`, `C35_white`, `C35_trimmed`, `C36_prefix_no_panic`,
  `C36_split_unique`, `C39_first`, `C39_none`, `C39_or`, `C68_kinds`, `C78_cases`, `C78_stays` on `propext` and `Quot.sound` only; all others on all three. No
  axioms are added, no `sorry`, no `native_decide`, no `bv_decide`.
* That the definitions in `Verif/Model` say what the cited code does, with the simplifications stated at each.
* That `Verif/Base` and the definitions that model `std`, `uncased` and `serde` behave as those crates do. These are:
  `BTreeMap::{get, insert, remove, entry}`, `str::{split, trim, parse, replace, to_ascii_*case}`, `Path::{components,
  join, starts_with, parent, ...}`, `env::{set_var, remove_var, vars}`, `UncasedStr` comparison, serde's visitors for
  the primitive types and what serde's derive generates (`Model/Types`); for C33, C80 and C81 that `str::parse` to `f32`
  and `f64`, `as f32` and `as f64` round to the nearest, ties to even (`Model/Float`).
* The specifications in `Verif/Spec`, which are meant to be read with the theorems.

## Findings: where the code does not do what it promises

Each is proved from the model, for a concrete input or for all inputs of a kind.

1. `escape` uses a character index as a byte offset: quoted text with a non-ASCII character before its first escape
   panics, fails or loses text (`C32_panics`, `C34_fails`, `C34_loses`, `C37_panics`). `C32_panics_iff`, `C34_exact` and
   `C35_exact` say for all text what happens.
2. With three or more failing providers all but the first and last errors are lost (`C15_middle_errors_lost`). `C15_exact` says
   which errors are kept, for figments built in any way: when more come to some, of those only the first stays.
3. `focus` is not the sub-figment if a higher profile holds a non-dictionary at the key (`C26_focus_fails`).
4. Every `Env` step after `lowercase(false)` turns lowercasing on again (`C38_fails`; `C38_exact` says for which chains
   keys keep their case).
5. Merging is not associative (`C09_merge_grouping_fails`).
6. `extract_inner` appends the requested path to the path inside instead of prepending it (`C45_fails`).
7. The default interpolation always prefixes the profile, against its documentation (`C57_fails`).
8. `diff_paths` is wrong with `.` or `..` in the base (`C54_fails`; `C54_exact` says with which).
9. `Tag::is_default` looks at all bits, `==` at the id only.
10. Lookup and nesting stop at the first empty component of a path (`C23_find_stops_at_empty`).
11. The typed round trip fails for 128-bit integers and nested options (`C30_fails_128`, `C30_fails_nullable`); exactly which
    values come back is `C30_exact`.
12. `a.chain(b)` drops the chain `b` already has (`C48_chain`).
13. `Jail::set_env` with a name the system refuses panics again on drop, which aborts the process if the first panic is
    still unwinding; if the closure caught it, the working directory stays in the (removed) jail, and the next thread to
    enter a jail finds and keeps it (`C52_fails`, `C52_fails_cwd`, `C62_fails`). The lock is released all the same (`C75_left`).
14. `Env::split("")` drops all variables (`C36_split_empty`).
15. Error paths through `Tagged` and `RelativePathBuf` contain the reserved field names (`C45_fails_magic`).
16. Errors of extracting 128-bit integers carry no provenance (`C46_fails_128`; `C46_extract_exact` says for every error
    which provenance it carries).
17. `bool_from_str_or_int` rejects 0 and 1 of 128 bits (`C55_fails`; `C55_exact` says what is read).
18. Inside `Either` extraction is never lossy, the crate's own types do not work, enums are read from `usize` indices,
    and errors carry no provenance (`C64_fails_*`).
19. `Jail::create_file("../x")` from below the jail's directory makes `x` in the working directory, also if the place
    above is inside the jail, so a provider for `../x` does not find it (`C67_place`).
20. Of sections of a nested document whose names differ in case only, all but the last are lost, although profiles are
    case-insensitive (`C71_nested_fails`).
21. A document with the keys `___figment_value_id` and `___figment_value_value` chooses the tag of its values, so that
    `find_metadata` and errors attribute them to another provider (`C71_reserved_fails`; `C71_exact` says what every
    document with these keys becomes).
22. The message of a conversion (`try_from`) carries no provenance at the top (`C72_fails`); for an element of an array
    with elements of several providers it names the wrong provider (`C46_fails_element`).
23. `extract_lossy` is not lossy inside untagged enums (`C74_lossy_inside_fails`), and nothing in them has provenance
    (`C74_provenance`).
24. A jail inside a jail blocks for ever, and with it all other threads that use jails (`C76_stuck`, `C76_never`); the
    documentation does not say so.
25. `extract_lossy` is not lossy inside flattened structs, and the errors of their fields do not point at the field, but
    at the struct they are flattened into (`C77_unflat_fails`, `C77_data`, `C77_error`).
26. A file provider looks for its file once to name it and again to read it. If files come and go in between, values are
    said to be from a file they are not from (`C78_source_fails`). And a file that is not required is an error if it is
    removed after it was seen and before it is read (`C78_optional_fails`).
27. Keys of maps are not read as they are written. Keys of a newtype around a string, and of `Option<String>`, are written
    as the string, and no text is read as one (`C79_fails_newtype`, `C79_never`); a key that is a character is read from
    text, and a map with such keys is not written (`C79_fails_char`). Numbers and booleans are neither read nor written as
    keys.
28. A decimal number in a string of at most seven bytes, extracted lossily as `f64`, is rounded to `f32` first: `"0.1"` is
    0.10000000149011612 (`C80_fails`, `C80_lossy_exact`). The same text in an environment variable is 0.1.
29. A decimal number extracted as `f32` is rounded to `f64` first when it is parsed as a value, or is in a string of more
    than seven bytes, which may not give the nearest `f32` (`C80_fails_f32`).
30. An enum value that is written as a dictionary (a variant with data) is not replaced when another variant is merged over
    it: both keys are in the merged dictionary, and extraction takes the first, in alphabetical order, and ignores the other.
    `Figment::from(Serialized::defaults(E::A(1))).merge(("B", 2))` is extracted as `E::A(1)`, without an error
    (`C83_fails`; what is read in general is in `C83_enum_exact`).

Such properties are `partial` in the manifest: the theorem with the suffix `_partial` is the property for the inputs for
which it holds, with the condition as a hypothesis, and the `_fails` theorem shows that the condition is needed.

## Per property

| id | what is modelled | how it is proved |
|---|---|---|
| C01–C04 | `Value::coalesce`, `Map::coalesce` | pointwise specification on *views* (path ↦ leaf / dictionary, `Spec/View`); equality of views for all paths by induction on the value |
| C05 | same | keys of the result as a set and sortedness |
| C06 | fold of `provide` | induction over the list of providers using the view theorems |
| C07, C08, C09 | same | equality of views plus extensionality of well-formed values; counterexample for C09 |
| C10 | `Profile`, uncased order | congruence of every profile operation under case folding; what case is, letter by letter, in Spec/Case and Props/Case |
| C11, C12 | `merged`, `select` | view of the merged value |
| C13 | `provide`, `select` | induction over histories (`Spec/History`) |
| C14, C15, C16 | `provide`, `Error` | induction over histories; C15 is false for ≥ 3 failures: counterexample, partial theorem, and `C15_exact` by induction over builds, with the providers named in `C16_built` (Props/Sources) |
| C17, C18, C21, C22, C61 | process with running calls and ghost log of provide calls | invariant by induction over interleaved steps; `Spec/Origin` says which provider a value is from; `C61_built` (Props/Sources) by induction over builds |
| C19, C20 | `Tag` on `BitVec 64`, counter | bit-vector lemmas, induction over steps |
| C23, C24, C25, C26 | `find`, `find_ref`, `nest`, `contains`, `focus` | induction on path components; C26 counterexample and partial theorem |
| C27, C28 | `Serialized`, tuple provider | from C11, C24 |
| C29 | `Serialize for Value`, `ValueSerializer` | induction on the value |
| C30, C44–C46 | `ConfiguredValueDe`, `MapDe`, `SeqDe`, universe of types | mutual induction on type and value; `Spec/Blame` follows an error path to a value |
| C47 | same | `Ty.part` (`Spec/Part`) cuts a value down to what a type reads; extraction from the cut value is the same |
| C31 | `ValueVisitor`, `deserialize_from` | induction on the value |
| C32–C35 | `Parser`, `escape`, `FromStr` | fuel sufficiency, grammar as a relation (`Spec/Text`), printer/parser induction; counterexamples for the escape defect |
| C36–C39 | `Env` | calls as relations (`Spec/Env`), induction over chains of calls |
| C40, C41 | `Data` | induction on the directory depth |
| C42, C43 | `Num` | case analysis, decimal printing/parsing induction |
| C48, C49 | `Error`, `Display` | induction on the chain |
| C50, C51 | `magic.rs` | lemmas on the dictionary `deserialize_from` makes up |
| C52, C53 | `Jail` | invariant over operation sequences; places instead of paths (`Spec/Walk`) |
| C54, C58 | `diff_paths`, `Display for Source` | induction on components |
| C55, C56 | `util.rs` | case analysis, induction |
| C57 | interpolaters | direct; counterexample to the documented rule |
| C59 | `PartialEq` | induction; `Value.Equal` (`Spec/Equal`) |
| C60 | `profiles` | from C05 over histories; `C60_built` (Props/Sources) by induction over builds |
| C62 | threads, lock | invariant over schedules; `C62_serial`: every schedule is as some order of calls, a second invariant |
| C75 | threads, lock | steps left as measure, for the thread with the lock; others idle; sum of the measures for fair schedules |
| C76 | threads, lock | the lock is held by the thread that waits for it, so every step is idle; the lock is not reentrant (crate `parking_lot`, trusted) |
| C63 | extraction for all types | `Ty.Means` (`Spec/Means`), an inductive relation of type, value and result; equivalence by mutual induction |
| C64 | `Either` | `Either.Picks` (`Spec/Either`), from C63 and lemmas on stripped tags |
| C65 | `Deserialize for Profile` | from the theorems on strings |
| C66 | all of the above together | `historyResult` (`Spec/Result`), a fold of view rules; induction over histories, then C63 and C69 on the value without tags; neither what a value means nor what is wrong with it depends on tags |
| C67 | `Jail`, `DataProvider`, `Env` | files by place; induction over operations; C40, C41, C37 and C39 on the process inside a jail |
| C68 | `Value` accessors, `From` | cases; C42, C44 and C63 for the numbers and for reading; induction on the type for `Value::from` |
| C69 | `De`, `Types`, `Magic`, `Fig.extract*` | `Ty.Complains` says what the first fault is; mutual induction on the type, with C63 for the parts before the fault |
| C70 | `Fig.run`, `Fig.merged`, `Fig.find*`, providers' `metadata` | `outcome`, `outcomeMetadata` (`Spec/Outcome`), folds over the calls, each with its tag; induction over histories, then C63 and C69 on the value |
| C71 | `Deserialize for Value/Profile`, `Data<F>` on documents | `Doc.Is` (`Spec/Document`) says which value a document is; mutual induction on documents; C41 and C70 for providers and merging |
| C72 | `Ty.parsed`, `Ty.via`, `Fig.extract*` | direct, from what `deserialize_any` does with errors; the types are also part of C45–C47, C63 and C69, by their inductions |
| C73 | derived and written `PartialEq` of errors, kinds, metadata, sources | `Spec/Equal`: IEEE 754 values, parts of paths; induction on the chain |
| C82 | `Env` as a provider (`Env.giving`), `provideWith`, `select`, `findValue`, `Value::from_str`, `Ty.de` | what the variables show at a path (C37) goes through merging and layering of views (C11); the text by inversion of the grammar (C34, C35, C80), the type by C63 |
| C83 | `Serialized::data`, `provideWith`, `merged`, `Value::coalesce`, `Ty.ser`, `Ty.de` | by induction on the type, what is read from a merge is what is read from the one changed where the other says so; with C66 for any history of merges, or any history and a join. For enums with data the specification says what is so, not what one would expect (finding 30). Keys that are two texts at once, untagged types and other conversions that do not give back what they were made of are not included |
| C84 | `provideWith`, `coalesceProfiles`, `merged`, `extract` | `Data.Agree` (`Spec/Order`) says when two providers do not conflict; on views, combining commutes under agreement, then induction on the permutation and C66. Exact for two merges or two joins (`C84_exact`), and for a merge and a join (`C84_merge_join_exact`) |
| C85 | `provideWith`, `coalesceProfiles`, `merged`, `extract_inner` | `Along` and `OpsAlong` (`Spec/Local`) say what lies along a path and which histories differ only elsewhere; the rules for views look only at prefixes of a path, so by induction over the histories the results agree along the path; then C66 |
| C86 | `extract`, `extract_inner`, `MapDe`, derived `Deserialize` | `FieldByField` (`Spec/ByField`) says that a struct is what is extracted at its fields' paths; from C63, index by index |
| C87 | `Env::iter`, `Env::data` | `Taken` and `SameTaken` (`Spec/Vars`) say which variables count, by what each call does to a name (C36); nested views whose paths do not overlap agree, so merging them commutes (lemmas of C84), then induction on the permutation |
| C88 | `provide`, `select`, `focus`, `merged`, `impl Provider for Figment` | `Build` (`Spec/Build`) is how a figment is built: providers and figments added, profiles selected, focused, nested to any depth; `Build.view`, `Build.selected` and `Build.result` say what comes out, path by path; induction on the build, then as C66 |
| C89 | `provide`, `merged`, `find_value` | `Data.ComesFrom` (`Spec/LastWord`) says from which profile a value comes; the layered view has a leaf exactly if it comes from some profile; where neither figment nor provider says anything in a profile nothing is said after providing; `LastWord` says when a call of a history decides, by induction on what comes after it |
| C90 | `merge`, `merged`, `extract` | `FieldsFromLast` (`Spec/Stack`): field by field, the last source that has it; the view at a key after merges is the last one that has the key (induction on the calls), then C66 and the meaning of structs |
| C80, C81 | `FloatOps.std`, `Num::from_str`, `Value::from_str`, floats in `Ty.de` | bits in order are sizes in order; the rounded bits are nearest for every fraction, by cases of the remainder; text by cases of sign, dot and exponent (`Spec/Float`) |
| C79 | `Ty.deKey`, `keyedLoop`, `Ty.keyed` in `Ty.de` and `Ty.ser` | cases of the type of the keys; induction on the entries |
| C78 | `Ask`, `Fig.provideAsking`, `resolveAsking`, `dataAsking`, `Env.asking` | every question takes the next of an arbitrary sequence of answers; locality by composition, the search by induction on the working directory |
| C77 | `Ty.flat`, `flatLoop`, `flatVisitor` | compared with `Ty.struct` of the other fields, and `Value.BuffersD` for the flattened ones |
| C74 | `Ty.any`, `Ty.via`, `anyVisitor` | `Spec/Means` `Value.Buffers`, `Spec/Complains` `Value.Refuses`; induction on the value |
