{"id": "C01", "title": "merge: the incoming provider wins every conflict, dictionaries are united", "statement": "After `figment.merge(provider)`, in every profile and at every key path: where both the figment and the provider hold dictionaries, the keys are united and the rule applies again below; where the provider holds anything and the two are not both dictionaries, the provider's value (whole) is there; where only one side holds something, that is there.", "quantifier": "all figments, all providers with readable data, all profiles, all key paths of any depth", "why_tests_cant": "The claim ranges over an unbounded set of nested values, so any finite set of examples leaves shapes and depths untried.", "anchors": ["src/coalesce.rs: Value::coalesce, Map::coalesce", "src/figment.rs: Figment::merge"]}
{"id": "C02", "title": "join: existing values are never replaced, only holes are filled", "statement": "After `figment.join(provider)`, every value that was reachable in the figment's data and is not a dictionary is still there unchanged, dictionaries only gain keys, and a path absent from the figment (with no scalar above it) takes the provider's value.", "quantifier": "all figments, all providers with readable data, all profiles, all key paths", "why_tests_cant": "The claim ranges over an unbounded set of nested values, so any finite set of examples leaves shapes and depths untried.", "anchors": ["src/coalesce.rs: Value::coalesce", "src/figment.rs: Figment::join"]}
{"id": "C03", "title": "adjoin: like join, but arrays are concatenated with the existing elements first", "statement": "After `figment.adjoin(provider)`, a path at which both sides hold arrays holds the figment's elements followed by the provider's, in order; every other path is as with join.", "quantifier": "all figments, all providers, all key paths, arrays of any length", "why_tests_cant": "The claim ranges over an unbounded set of nested values, so any finite set of examples leaves shapes and depths untried.", "anchors": ["src/coalesce.rs: Value::coalesce (Adjoin)", "src/figment.rs: Figment::adjoin"]}
{"id": "C04", "title": "admerge: like merge, but arrays are concatenated with the existing elements first", "statement": "After `figment.admerge(provider)`, a path at which both sides hold arrays holds the figment's elements followed by the provider's; every other path is as with merge.", "quantifier": "all figments, all providers, all key paths, arrays of any length", "why_tests_cant": "The claim ranges over an unbounded set of nested values, so any finite set of examples leaves shapes and depths untried.", "anchors": ["src/coalesce.rs: Value::coalesce (Admerge)", "src/figment.rs: Figment::admerge"]}
{"id": "C05", "title": "combining neither loses nor invents keys", "statement": "For all four combination strategies, the keys of the combined dictionary (in each profile, and in every pair of united dictionaries below it) are exactly the union of both sides' keys, each present once and in sorted order.", "quantifier": "all pairs of dictionaries, all four strategies, all depths", "why_tests_cant": "The claim ranges over an unbounded set of nested values, so any finite set of examples leaves shapes and depths untried.", "anchors": ["src/coalesce.rs: Map::coalesce"]}
{"id": "C06", "title": "last merge wins and first join wins over any provider history", "statement": "For any sequence of providers merged one after the other into an empty figment, a key which each provider either leaves out or sets to a non-dictionary holds the value of the last provider that sets it; for a sequence of joins, the first. With any mix of the four strategies the outcome is the left fold of the pairwise rules.", "quantifier": "all finite sequences of providers and strategies, all keys", "why_tests_cant": "The number and order of providers is unbounded; tests use two or three.", "anchors": ["src/figment.rs: Figment::provide", "src/coalesce.rs"]}
{"id": "C07", "title": "empty providers change nothing and repetition is harmless", "statement": "Combining a provider whose data is empty, with any strategy, leaves all data unchanged. Merging or joining the same data twice gives the same data as once. (adjoin/admerge are not idempotent: arrays grow.)", "quantifier": "all figments, all providers, both identities and idempotence for merge and join", "why_tests_cant": "The claim ranges over an unbounded set of nested values, so any finite set of examples leaves shapes and depths untried.", "anchors": ["src/coalesce.rs", "src/figment.rs: Figment::provide"]}
{"id": "C08", "title": "join is merge with the sides swapped", "statement": "For all dictionaries a and b, joining b into a gives the same data, including the tags (provenance) of every value, as merging a into b.", "quantifier": "all pairs of values and dictionaries", "why_tests_cant": "The claim ranges over an unbounded set of nested values, so any finite set of examples leaves shapes and depths untried.", "anchors": ["src/coalesce.rs: Value::coalesce"]}
{"id": "C09", "title": "grouping of merges does not matter", "statement": "Merging a figment that was itself built by merges is the same as merging its providers one by one: a.merge(b.merge(c)) and a.merge(b).merge(c) hold the same data. (False in general when one key is a dictionary in a and c but not in b; holds when the three sides agree on which paths are dictionaries.)", "quantifier": "all triples of dictionaries", "why_tests_cant": "The claim ranges over an unbounded set of nested values, so any finite set of examples leaves shapes and depths untried.", "anchors": ["src/coalesce.rs", "src/figment.rs: impl Provider for Figment"]}
{"id": "C10", "title": "profile names are case-insensitive everywhere", "statement": "Two profile names that differ only in ASCII case are the same profile: they are equal, order the same against any third, are both custom or both not, data emitted under one is found under the other, and selecting either gives the same extraction result. A figment never holds two profiles that differ only in case.", "quantifier": "all strings as profile names, all figments", "why_tests_cant": "Every string with every casing cannot be enumerated; the map must stay consistent for each.", "anchors": ["src/profile.rs: Profile, is_custom", "src/figment.rs: select, merged"]}
{"id": "C11", "title": "profile layering: global over selected over default", "statement": "The extracted data at every path is the default profile's data, with the selected (custom) profile's data merged over it, with the global profile's data merged over both. In particular a value in the global profile, unless both it and the others are dictionaries, is what is extracted no matter what other profiles hold or in which order providers were added.", "quantifier": "all figments, all selected profiles, all paths", "why_tests_cant": "The claim ranges over an unbounded set of nested values, so any finite set of examples leaves shapes and depths untried.", "anchors": ["src/figment.rs: Figment::merged"]}
{"id": "C12", "title": "select only selects", "statement": "`select` changes which profile is extracted and nothing else: data, metadata and profiles() are unchanged; the last select before extraction decides; selecting a profile that no provider mentions gives the default-plus-global data; selecting `default` or `global` likewise.", "quantifier": "all figments, all sequences of selects", "why_tests_cant": "The claim ranges over an unbounded set of nested values, so any finite set of examples leaves shapes and depths untried.", "anchors": ["src/figment.rs: select, merged, profiles"]}
{"id": "C13", "title": "who sets the selected profile", "statement": "merge and admerge of a provider that names a profile select that profile; join and adjoin never change the selected profile; a provider that names none never changes it. So after any history the selected profile is the last one selected, merged or admerged, else `default`.", "quantifier": "all histories of provide and select operations", "why_tests_cant": "Histories are unbounded.", "anchors": ["src/figment.rs: provide", "src/coalesce.rs: impl Coalescible for Profile"]}
{"id": "C14", "title": "a failed provider makes every extraction fail, for good", "statement": "After any history, extraction (of anything, at any path) fails if at least one provider failed to produce data, no matter what was added before or after; if all providers succeeded the figment's data is available. No later provider can repair or hide the failure.", "quantifier": "all histories of operations with failing and succeeding providers", "why_tests_cant": "Orders and positions of failures are unbounded.", "anchors": ["src/figment.rs: provide, merged"]}
{"id": "C15", "title": "every failing provider is reported", "statement": "When several providers fail, the error returned by extraction iterates over one error per failing provider, and `count()` is the number of failing providers.", "quantifier": "all histories with any number of failing providers", "why_tests_cant": "Existing tests chain two errors; the claim is for any number.", "anchors": ["src/figment.rs: provide", "src/error.rs: chain, count, IntoIter"]}
{"id": "C16", "title": "a provider's failure names that provider", "statement": "If a provider fails with an untagged error, the error seen on extraction carries that provider's metadata (name, source), and the profile `default`.", "quantifier": "all histories, all failing providers", "why_tests_cant": "Positions in the history are unbounded.", "anchors": ["src/figment.rs: provide, merged", "src/error.rs: retagged, resolved"]}
{"id": "C17", "title": "provenance: find_metadata names the provider that supplied the value", "statement": "For every path at which a value that is not a dictionary can be found after any history of provide operations, `find_metadata(path)` is the metadata of the one provider whose data supplied this very value.", "quantifier": "all histories of provide operations, all paths", "why_tests_cant": "The tag bookkeeping must be right for every history and every nesting.", "anchors": ["src/figment.rs: provide, find_metadata", "src/value/value.rs: map_tag", "src/value/tag.rs"]}
{"id": "C18", "title": "provenance: the tag records the emitting profile", "statement": "Every value a provider emits under a profile is tagged so that `tag().profile()` is `Some(default)` or `Some(global)` for these two profiles (in any casing) and None for any other profile.", "quantifier": "all providers, all profiles, all values at any depth", "why_tests_cant": "The claim ranges over an unbounded set of nested values, so any finite set of examples leaves shapes and depths untried.", "anchors": ["src/value/tag.rs: for_profile, profile", "src/figment.rs: provide"]}
{"id": "C19", "title": "tags are unique for the life of the process and never the default tag", "statement": "For every interleaving of any number of threads creating figments and providing to them, no two provide operations obtain equal tags, none obtains the default tag, and a later one obtains a greater tag; when identifiers run out the operation panics instead of reusing one.", "quantifier": "all interleavings of all threads and all numbers of operations up to the counter's capacity", "why_tests_cant": "Schedules cannot be enumerated by tests and the capacity (2^62) cannot be reached.", "anchors": ["src/value/tag.rs: Tag::next, COUNTER"]}
{"id": "C20", "title": "tag encoding round-trips", "statement": "Packing a metadata id below 2^62 and a profile kind into a tag and unpacking gives the same id and kind; changing the profile kind keeps the id; equality and order of tags look at the id only; serialising and deserialising a tag is the identity.", "quantifier": "all 2^62 ids, all three profile kinds, all 2^64 raw tags", "why_tests_cant": "2^64 cases.", "anchors": ["src/value/tag.rs: new, metadata_id, profile_tag, for_profile, PartialEq, Ord"]}
{"id": "C21", "title": "every value in a figment has known provenance", "statement": "After any history in which providers emit values without tags or are figments themselves, every value in the figment's data at any depth and in any profile carries a non-default tag that `get_metadata` resolves.", "quantifier": "all histories, including figments provided to figments, all values at any depth", "why_tests_cant": "Histories and nesting are unbounded.", "anchors": ["src/figment.rs: provide, get_metadata", "src/value/value.rs: map_tag"]}
{"id": "C22", "title": "a figment is a faithful provider", "statement": "Providing a figment passes on its data, its error and its selected profile, keeps every value's tag, and makes every tag the inner figment can resolve resolve to the same metadata in the outer one. `Figment::from(f)` extracts exactly what f extracts.", "quantifier": "all figments, all strategies", "why_tests_cant": "The claim ranges over an unbounded set of nested values, so any finite set of examples leaves shapes and depths untried.", "anchors": ["src/figment.rs: impl Provider for Figment, provide, from"]}
{"id": "C23", "title": "path lookup composes and its two forms agree", "statement": "`find` and `find_ref` give the same value for every value and path; looking up \"a.b\" is looking up \"b\" in the result of \"a\"; lookup of the empty path is the value itself; lookup through a non-dictionary finds nothing.", "quantifier": "all values, all path strings", "why_tests_cant": "The claim ranges over an unbounded set of nested values, so any finite set of examples leaves shapes and depths untried.", "anchors": ["src/value/value.rs: Value::find, Value::find_ref"]}
{"id": "C24", "title": "nest and find are inverse", "statement": "For every key path and value, `nest(key, value).find(key)` is the value, and nothing else is in the nested dictionary: any path not along the key finds nothing.", "quantifier": "all key strings, all values", "why_tests_cant": "The claim ranges over an unbounded set of nested values, so any finite set of examples leaves shapes and depths untried.", "anchors": ["src/util.rs: nest", "src/value/value.rs: find"]}
{"id": "C25", "title": "contains, find_value and extract_inner agree on presence", "statement": "`contains(path)` is true exactly when `find_value(path)` succeeds; if the figment has no error and the path is absent, `find_value` and `extract_inner` fail with a missing-field error naming the path.", "quantifier": "all figments, all paths", "why_tests_cant": "The claim ranges over an unbounded set of nested values, so any finite set of examples leaves shapes and depths untried.", "anchors": ["src/figment.rs: contains, find_value, extract_inner"]}
{"id": "C26", "title": "focus commutes with lookup", "statement": "`figment.focus(key)` behaves as the sub-figment at key: a path `sub` is found in the focused figment exactly when `key.sub` is found in the original, with the same value; metadata and selected profile are kept; focusing twice is focusing on the joined path. (Documented law; fails when a higher-priority profile holds a non-dictionary at the key.)", "quantifier": "all figments, all keys and sub-paths, all selected profiles", "why_tests_cant": "The claim ranges over an unbounded set of nested values, so any finite set of examples leaves shapes and depths untried.", "anchors": ["src/figment.rs: focus"]}
{"id": "C27", "title": "a merged (key, value) pair is what is extracted at that key", "statement": "For any figment without error, after `merge((key, value))` with a value that does not serialise to a dictionary, `find_value(key)` is that value, whatever profile is selected and whatever the figment held, and stays so after merging anything that does not itself emit to the global profile.", "quantifier": "all figments, all non-empty keys, all values, all selected profiles", "why_tests_cant": "The claim ranges over an unbounded set of nested values, so any finite set of examples leaves shapes and depths untried.", "anchors": ["src/provider.rs: impl Provider for (K, V)", "src/providers/serialized.rs", "src/figment.rs: merge, merged"]}
{"id": "C28", "title": "Serialized emits exactly the serialised value under its key path and profile", "statement": "`Serialized` with a key emits, under its profile only, a dictionary in which exactly the key path leads to the serialised value; without a key the serialised dictionary itself; a value that is not a dictionary where one is needed is an `InvalidType(actual, \"map\")` error.", "quantifier": "all serialisable values, all keys, all profiles", "why_tests_cant": "The claim ranges over an unbounded set of nested values, so any finite set of examples leaves shapes and depths untried.", "anchors": ["src/providers/serialized.rs: data, key, profile"]}
{"id": "C29", "title": "serialising a Value gives the same Value", "statement": "`Value::serialize(&v)` succeeds for every value v and equals v (tags aside, `usize`/`isize` numbers compared numerically), provided v contains no NaN.", "quantifier": "all values of any depth", "why_tests_cant": "The claim ranges over an unbounded set of nested values, so any finite set of examples leaves shapes and depths untried.", "anchors": ["src/value/ser.rs", "src/value/value.rs: Value::serialize, PartialEq"]}
{"id": "C30", "title": "typed round trip: serialise then extract gives the value back", "statement": "For every type of the serde data model (booleans, integers, floats, chars, strings, options, sequences, tuples, maps with string keys, structs, newtypes, enums with unit, newtype, tuple and struct variants) and every value of it, merging `Serialized::defaults(value)` and extracting at the same type gives the value back. (Fails for 128-bit integers, nested options and options of unit.)", "quantifier": "all types of the modelled universe, all their values", "why_tests_cant": "Types and values are both unbounded.", "anchors": ["src/value/ser.rs: ValueSerializer", "src/value/de.rs: ConfiguredValueDe, MapDe, SeqDe", "src/figment.rs: extract"]}
{"id": "C31", "title": "extracting a Value is the identity", "statement": "`extract::<Value>()` and `extract_inner::<Value>(path)` return the merged data, respectively the value found at the path, including the tag of every nested value, when no dictionary uses figment's two reserved keys.", "quantifier": "all figments, all values of any depth", "why_tests_cant": "The claim ranges over an unbounded set of nested values, so any finite set of examples leaves shapes and depths untried.", "anchors": ["src/value/de.rs: Value::deserialize_from, ValueVisitor", "src/figment.rs: extract"]}
{"id": "C32", "title": "parsing a value from text never fails", "statement": "`str.parse::<Value>()` returns a value for every string: it never errs, never panics and always terminates. (Panics today for quoted strings with a non-ASCII character before the first escape.)", "quantifier": "all Unicode strings", "why_tests_cant": "All strings cannot be enumerated; termination and panic freedom are universal claims.", "anchors": ["src/value/parse.rs: impl FromStr for Value", "src/value/escape.rs: escape"]}
{"id": "C33", "title": "text round trip: every value can be written so that it parses back", "statement": "There is a printer such that for every value built from booleans, unsigned and negative machine-size integers, 64-bit floating point numbers other than NaN, strings, chars, arrays and dictionaries, parsing the printed text gives the value back; surrounding white space never matters. No text gives any other value, except that white space gives the unit.", "quantifier": "all such values of any depth, all strings, all 64-bit floating point numbers; for the converse: all texts", "why_tests_cant": "The claim ranges over an unbounded set of nested values, so any finite set of examples leaves shapes and depths untried.", "anchors": ["src/value/parse.rs: Parser", "src/value/escape.rs"]}
{"id": "C34", "title": "escape sequences are replaced exactly, all other text is kept", "statement": "Unescaping a quoted string replaces each escape by the character it names and keeps every other character, in order; an unknown or truncated escape or a control character is an error. (Text with a non-ASCII character before the first escape loses characters or panics.)", "quantifier": "all strings", "why_tests_cant": "All strings cannot be enumerated.", "anchors": ["src/value/escape.rs: escape, hex"]}
{"id": "C35", "title": "text that is not a value parses as itself", "statement": "When the trimmed text is not a well-formed value, the result is the trimmed text as a string, unaltered; in all cases the result depends on the trimmed text only; unquoted text without separators, dot, quotes or brackets that is no integer or boolean is itself.", "quantifier": "all strings", "why_tests_cant": "All strings cannot be enumerated.", "anchors": ["src/value/parse.rs: from_str, value"]}
{"id": "C36", "title": "environment filters compose in the order written", "statement": "For any chain of `filter`, `map`, `filter_map`, `only`, `ignore`, `split` after `raw` or `prefixed`, the key a variable is emitted under is the composition of the steps in the order written, dropping it at the first step that rejects it; prefix matching ignores ASCII case and removes exactly the prefix.", "quantifier": "all chains of steps, all environments", "why_tests_cant": "Chains and environments are unbounded.", "anchors": ["src/providers/env.rs: chain, prefixed, filter, map, filter_map, split, only, ignore, iter"]}
{"id": "C37", "title": "environment data is always well-formed and later variables win", "statement": "For every environment and every chain of steps: emitted keys have no empty path component and no surrounding white space; reading the data never fails and never panics (given that value parsing does not); the data is for the chosen profile only and is the emitted variables merged one over the other in order, so that each emitted key path leads to the parsed value of the last variable emitting it, unless one path extends another or dictionary values merge.", "quantifier": "all environments, all chains", "why_tests_cant": "Environments are arbitrary strings.", "anchors": ["src/providers/env.rs: iter, data"]}
{"id": "C38", "title": "lowercase() decides whether keys are lowercased", "statement": "Keys are ASCII-lowercased unless `lowercase(false)` was the last call to `lowercase`, at whatever position in the chain. (Fails: any later step turns lowercasing on again.)", "quantifier": "all chains of steps", "why_tests_cant": "Chains are unbounded.", "anchors": ["src/providers/env.rs: chain, lowercase"]}
{"id": "C39", "title": "variable lookup ignores case and surrounding space", "statement": "`Env::var(name)` and `Profile::from_env(name)` find the first variable whose trimmed name equals the given one up to ASCII case; `var` trims the value, `from_env` keeps it; the `_or` forms give the default exactly when there is none.", "quantifier": "all environments, all names", "why_tests_cant": "Environments are arbitrary.", "anchors": ["src/providers/env.rs: var, var_or", "src/profile.rs: from_env, from_env_or"]}
{"id": "C40", "title": "file search finds the nearest file and reports absence as configured", "statement": "A relative path with search enabled resolves to the file in the closest ancestor of the working directory (itself included) which has it; an absolute path or a disabled search is looked at only as given. A file that is not found gives no data if not required and an error if required.", "quantifier": "all file systems (sets of files), all working directories of any depth, all paths", "why_tests_cant": "Directory depths and layouts are unbounded.", "anchors": ["src/providers/data.rs: resolve, data, required, search"]}
{"id": "C41", "title": "file and string data go to the configured profile, or are profiles if nested", "statement": "A data provider that is not nested emits exactly its parsed dictionary under exactly its profile; a nested one emits exactly its parsed profile map; a parse failure is an error carrying the parser's message; the last of nested()/profile() decides.", "quantifier": "all parsers, all sources, all chains of builder calls", "why_tests_cant": "Parsers and sources are arbitrary.", "anchors": ["src/providers/data.rs: data, nested, profile"]}
{"id": "C42", "title": "numbers keep their value through every conversion", "statement": "Every conversion of a number (to_u32, to_u128, to_u128_lossy, to_i128, to_actual, deserialisation of `usize`/`isize`) gives the same integer or nothing; two integer numbers are equal exactly when they have the same signedness and value, whatever their widths.", "quantifier": "all numbers of all twelve integer kinds", "why_tests_cant": "2^128 cases.", "anchors": ["src/value/value.rs: impl Num, PartialEq for Num", "src/value/de.rs: Deserializer for Num"]}
{"id": "C43", "title": "parsing a number gives its value in the smallest type", "statement": "Parsing decimal text without a dot as a number gives the integer written, in the narrowest type that can hold it (signed if it starts with '-'), and fails exactly when the text is not an integer in range; printing any 128-bit integer and parsing it gives it back.", "quantifier": "all strings, all 128-bit integers", "why_tests_cant": "All strings and 2^128 values.", "anchors": ["src/value/value.rs: impl FromStr for Num"]}
{"id": "C44", "title": "lossy extraction accepts everything strict extraction does, with the same result", "statement": "If `extract` at a type succeeds then `extract_lossy` succeeds with the same result; a lossy bool is given exactly for booleans, 0/1 and the eight documented words in any case; a lossy number exactly for numbers and text that parses as one.", "quantifier": "all types of the modelled universe, all values", "why_tests_cant": "Types and values are unbounded.", "anchors": ["src/value/de.rs: LossyInterpreter", "src/value/value.rs: to_bool_lossy, to_num_lossy"]}
{"id": "C45", "title": "extraction errors point at the offending value", "statement": "When extraction fails at a value of the wrong type, the error's path leads, by lookup step by step through keys and indices, from the extracted value to a value whose kind is the one reported as found. For extract_inner the path is the requested path followed by the path inside. (extract_inner gives the two in the wrong order.)", "quantifier": "all types of the modelled universe, all values, all failure positions", "why_tests_cant": "Types, values and failure positions are unbounded.", "anchors": ["src/value/de.rs: MapDe, SeqDe, deserialize_any", "src/error.rs: prefixed, with_path", "src/figment.rs: extract_inner"]}
{"id": "C46", "title": "extraction errors carry the offending value's provenance", "statement": "When extraction fails at a value of the wrong type, the error carries the tag of the offending value, hence the metadata of the provider that supplied it, and that tag's profile (or the selected one).", "quantifier": "all figments, all types of the modelled universe", "why_tests_cant": "Types, values and failure positions are unbounded.", "anchors": ["src/value/de.rs", "src/error.rs: retagged, resolved"]}
{"id": "C47", "title": "extraction reads only what the type names", "statement": "Extracting a struct depends only on the values of its fields: two figments that agree on these fields give the same result, and unknown keys are ignored.", "quantifier": "all struct types of the modelled universe, all figments", "why_tests_cant": "Types and values are unbounded.", "anchors": ["src/value/de.rs: MapDe", "src/figment.rs: extract"]}
{"id": "C48", "title": "error chains can be counted and iterated", "statement": "For every error, `count()` is the number of errors `into_iter()` yields, each yielded error has no further chain, and `a.chain(b)` of errors yields b first and then all of a. `with_path` appends exactly the non-empty components.", "quantifier": "all errors with chains of any length", "why_tests_cant": "Chains are unbounded.", "anchors": ["src/error.rs: chain, count, IntoIter, with_path"]}
{"id": "C49", "title": "error messages name kind, key, source and every chained error", "statement": "The displayed message of an error is the message of its kind, then the interpolated key when path, profile and metadata are known, then the source and name of its metadata when known, and then on new lines the same for every chained error; the list of alternatives shows each exactly once.", "quantifier": "all errors, any chain length, any list of alternatives", "why_tests_cant": "Unbounded.", "anchors": ["src/error.rs: Display, OneOf"]}
{"id": "C50", "title": "RelativePathBuf is relative to the declaring file", "statement": "Extracting a path from a value whose provenance is a file gives the declaring file as metadata path and the configured path as original; `relative()` is the original if rooted, else the declaring file's directory joined with it, else the original.", "quantifier": "all figments, all paths, all provenance", "why_tests_cant": "Unbounded.", "anchors": ["src/value/magic.rs: RelativePathBuf"]}
{"id": "C51", "title": "Tagged extraction adds the tag and nothing else", "statement": "Extracting `Tagged<T>` succeeds exactly when extracting T does, has the same inner value and the tag of the value extracted; equality ignores the tag; re-serialising and extracting a Tagged with a non-default tag keeps both.", "quantifier": "all figments, all modelled types T", "why_tests_cant": "Unbounded.", "anchors": ["src/value/magic.rs: Tagged"]}
{"id": "C52", "title": "Jail restores the environment and working directory", "statement": "After any sequence of set_env, clear_env, change_dir and file operations, in any order and also when the closure fails or panics, dropping the jail leaves every environment variable exactly as before and the working directory as before.", "quantifier": "all sequences of jail operations, all environments, every point of failure", "why_tests_cant": "Operation sequences and failure points are unbounded.", "anchors": ["src/jail.rs: set_env, clear_env, Drop, try_with"]}
{"id": "C53", "title": "Jail paths never leave the jail", "statement": "Every path a jail operation accepts, taken from the current directory reached by any sequence of accepted operations, lies lexically inside the jail directory; a path that names an absolute location outside is refused.", "quantifier": "all sequences of operations, all paths", "why_tests_cant": "Paths and sequences are unbounded.", "anchors": ["src/jail.rs: dedot, safe_jailed_path, change_dir"]}
{"id": "C54", "title": "diff_paths gives the way from base to path", "statement": "For all paths where `diff_paths(path, base)` gives a result, walking the result from base arrives at path. (Fails when base contains `.` or `..` components.)", "quantifier": "all pairs of paths", "why_tests_cant": "Paths are unbounded.", "anchors": ["src/util.rs: diff_paths"]}
{"id": "C55", "title": "bool_from_str_or_int accepts exactly its documented forms", "statement": "It gives true or false exactly for a boolean, for the words true/false in any case and for the integers 0 and 1, and an error for any other value.", "quantifier": "all values", "why_tests_cant": "All strings and integers.", "anchors": ["src/util.rs: bool_from_str_or_int"]}
{"id": "C56", "title": "vec_tuple_map round-trips", "statement": "Serialising a list of pairs with distinct string keys and deserialising it gives the same pairs in key order.", "quantifier": "all lists of pairs", "why_tests_cant": "Lists are unbounded.", "anchors": ["src/util.rs: vec_tuple_map"]}
{"id": "C57", "title": "key interpolation", "statement": "The default interpolation of a path is the profile, a dot, and the path joined by dots; the documented rule (profile prefix only for custom profiles) does not hold. Environment interpolation upper-cases the path and ignores the profile.", "quantifier": "all profiles, all paths", "why_tests_cant": "Unbounded.", "anchors": ["src/metadata.rs: default_interpolater, interpolate", "src/providers/env.rs: metadata"]}
{"id": "C58", "title": "displayed file sources are never longer than the path itself", "statement": "A file source is displayed either as its path or as the path relative to the working directory, the latter exactly when it has fewer components.", "quantifier": "all paths, all working directories", "why_tests_cant": "Unbounded.", "anchors": ["src/metadata.rs: Display for Source", "src/util.rs: diff_paths"]}
{"id": "C59", "title": "equality of values ignores provenance", "statement": "Two values that differ only in tags are equal; equality is symmetric and transitive, and reflexive exactly for values without NaN; retagging never changes a value up to equality.", "quantifier": "all values of any depth", "why_tests_cant": "The claim ranges over an unbounded set of nested values, so any finite set of examples leaves shapes and depths untried.", "anchors": ["src/value/value.rs: PartialEq for Value, Num, map_tag"]}
{"id": "C60", "title": "profiles() lists exactly the profiles with data", "statement": "After any history without failures, `profiles()` yields each profile under which some provider emitted data, exactly once up to case, in case-insensitive order; with a failure it yields none.", "quantifier": "all histories", "why_tests_cant": "Histories are unbounded.", "anchors": ["src/figment.rs: profiles, provide"]}
{"id": "C61", "title": "metadata() lists providers in the order they were added", "statement": "After any history of provide operations on a fresh figment, `metadata()` yields one metadata per provider added directly or through a figment, in the order in which they were added anywhere in the process.", "quantifier": "all histories, including nested figments", "why_tests_cant": "Histories are unbounded.", "anchors": ["src/figment.rs: metadata, provide", "src/value/tag.rs: next"]}
{"id": "C62", "title": "concurrent jails do not see each other", "statement": "When any number of threads each run a jail, at most one is inside its jail at a time; each finds the environment and working directory as if it ran alone, from the state before any jail; and whenever no jail is open the environment and working directory are as before.", "quantifier": "all numbers of threads, all closures (sequences of jail operations), all schedules of the threads, every point of failure", "why_tests_cant": "Schedules are unbounded and a test sees one interleaving.", "anchors": ["src/jail.rs: LOCK, try_with, Drop"]}
{"id": "C63", "title": "extraction gives exactly what the value means", "statement": "`extract` and `extract_inner` succeed exactly when the value has the shape of the type asked for, and then give its content: an integer only from a number that is that integer and fits, a bool only from a bool, text from a string or character, a char from a character or a one-character string, a list from an array element by element, a map from a dictionary key by key, an option `None` exactly from an empty value, a struct field by field with defaults for what is absent, an enum from a variant name, index or single entry; nothing is truncated, wrapped or parsed. The lossy extractions add exactly the readings of text as numbers and of 0, 1 and the documented words as booleans.", "quantifier": "all types made of the modelled ones, nested to any depth; all figments after any history; all paths", "why_tests_cant": "Types, values and numbers are unbounded; a test sees single pairs of them.", "anchors": ["src/value/de.rs: ConfiguredValueDe", "src/figment.rs: extract, extract_lossy, extract_inner, extract_inner_lossy", "src/value/value.rs: to_num_lossy, to_bool_lossy"]}
{"id": "C64", "title": "Either is its first alternative if that can be read, else its second", "statement": "Extracting an `Either<A, B>` gives `Left(a)` exactly when extracting an `A` gives `a`; otherwise `Right(b)` exactly when extracting a `B` gives `b`; it fails exactly when both would, with a message that says why each does. What an `Either` serialises to is read as the same `Either`.", "quantifier": "all magic types A (Tagged of any type, RelativePathBuf) and all modelled types B; all figments after any history; all paths; strict and lossy extraction", "why_tests_cant": "Types and values are unbounded, and which of the two alternatives reads a value depends on both.", "anchors": ["src/value/magic.rs: Either, Magic", "src/value/de.rs: ValueVisitor, ConfiguredValueDe::deserialize_struct"]}
{"id": "C65", "title": "profiles in configuration", "statement": "Extracting a Profile at a path succeeds exactly if the value there is text, strictly or lossily, and gives the profile with that name; otherwise the error is that of extracting a String. A profile that is serialised under a key and extracted there is the same profile. Selecting the extracted profile selects the same data as selecting any other casing of the text.", "quantifier": "all figments, paths, values and profiles", "why_tests_cant": "Names, values and figments are unbounded.", "anchors": ["src/profile.rs: Deserialize, Serialize, From<&str>, as_str, PartialEq", "src/figment.rs: extract_inner, extract_inner_lossy, select"]}
{"id": "C66", "title": "extraction after a history, from what the providers say to the typed result", "statement": "After any sequence of merge, join, adjoin, admerge and select calls with providers that do not fail, there is one value which at each path is what the four combination rules and the layering of profiles make of the providers' data; extract, extract_lossy, extract_inner and extract_inner_lossy at any type give exactly what this value (or the value at the path in it) means when read as the type. They fail exactly when that value has a fault, read as the type, with the path and the kind of its first fault. Nothing else matters: histories with the same outcome by these rules give the same on every extraction, or fail with the same kind of error at the same path.", "quantifier": "all sequences of calls, all providers, all data, all types of the universe without the crate's own types, all paths", "why_tests_cant": "The histories, the data and the types are unbounded, and so are their combinations.", "anchors": ["src/figment.rs: provide, merged, extract, extract_lossy, extract_inner, extract_inner_lossy, select", "src/coalesce.rs", "src/value/de.rs"]}
{"id": "C67", "title": "What a jail is given its providers see, and nothing of it stays", "statement": "Inside Jail::try_with, a file made with create_file is what a file provider (any format, any of required/search/nested/profile called on it) for the same path reads right after, provided the path is absolute or does not lead above the working directory; a path that does lead above it is made elsewhere than where it leads. Later operations leave the file readable by its absolute path until one is given a path to the same place. A variable set with set_env is found by Env::var and Profile::from_env by its name up to case and is in the data of an Env provider under the key made of its name, in whatever order the system lists variables, unless another variable has that name or a key on the same path; after clear_env providers see no variable. When try_with is over and the directory could be removed, the files of the system are those from before, whatever the closure did and wherever it stopped.", "quantifier": "all jails, states of the process, paths, contents, formats, calls on the provider, names and values of variables, orders of variables, sequences of operations and answers of the operating system", "why_tests_cant": "Tests use a few plain file names and variables; the claim is about every path (with .. and . and absolute ones), every sequence of operations before and after and every end of the closure.", "anchors": ["src/jail.rs: Jail::create_file, Jail::create_binary, Jail::set_env, Jail::clear_env, Jail::try_with, safe_jailed_path, dedot, Drop for Jail", "src/providers/data.rs: Data::resolve, Provider::data", "src/providers/env.rs: Env::var, Env::iter, Provider::data", "src/profile.rs: Profile::from_env"]}
{"id": "C68", "title": "Accessors, Value::from, serialisation and deserialisation agree", "statement": "Each accessor of Value (as_str, to_char, to_bool, to_num, to_empty, to_u128, to_i128, to_f64, as_dict, as_array and the into_ forms) gives the content exactly if the value is of its kind, the kind errors about it name. What to_bool and to_bool_lossy give is what is extracted as bool, strictly and lossily; as_str (or the character of to_char) is what is extracted as String; an extracted integer is what to_u128 or to_i128 give; what to_f64 gives is what is extracted as f64. Value::from(x) has x as its content under the accessor of x's type, is equal to Value::serialize(x) unless there is a NaN in x, and is deserialised and extracted to x.", "quantifier": "all values; all booleans, characters, strings, integers of the twelve types, floats, and vectors and maps of them in any nesting", "why_tests_cant": "Tests convert a few small numbers and strings; agreement must hold for every width, sign, boundary and nesting.", "anchors": ["src/value/value.rs: conversion_fn, Value::to_u128, to_i128, to_f64, to_bool_lossy, to_actual, impl_from_for_value, From<Vec<T>>, From<&[T]>, From<Map<K, V>>", "src/value/ser.rs: ValueSerializer", "src/value/de.rs: deserialize_bool, deserialize_any, Num::deserialize_any"]}
{"id": "C69", "title": "Extraction fails exactly when something is wrong with the value, and the error says what and where", "statement": "extract, extract_lossy, extract_inner, extract_inner_lossy and Value::deserialize fail with an error of a given path and kind if and only if that is the first fault of the value, read as the type: not of the type expected, an integer out of range, an array too short, a missing field that has no default and is no Option, an unknown field of a struct that denies them, an unknown variant or one without its content. The first fault is the one in the first element of an array or first entry of a dictionary, in the order of keys, that has one; missing fields come last, in the order the type declares them. extract_inner says that the path is missing if there is no value at it. Every value either can be read or has a first fault, and never both.", "quantifier": "all types made of the supported serde features, all values, paths and kinds of errors; for figments: all histories of the process", "why_tests_cant": "A test checks one message for one bad value; the claim is which error comes out for every combination of faults in a value of any nesting, and that nothing acceptable is refused.", "anchors": ["src/figment.rs: Figment::extract, extract_lossy, extract_inner, extract_inner_lossy", "src/value/de.rs: ConfiguredValueDe, MapDe, SeqDe", "src/error.rs: Kind, Actual, de::Error for Error", "src/util.rs: bool_from_str_or_int, vec_tuple_map"]}
{"id": "C70", "title": "The whole outcome of any sequence of calls, with where each value is from", "statement": "After any sequence of merge, join, adjoin, admerge and select, with providers that do not fail, the data a figment extracts from is at every path exactly what the rules of these calls and of profiles give, and each value in it is attributed to the call it is from: find_value gives it, find_metadata gives the metadata of that call's provider with the location of the call, extract and extract_inner (also lossy) at any type give what that value means or its first fault, and types that show provenance (Tagged, RelativePathBuf) show that of this call. In particular a value of the provider merged last is found as given and attributed to it. Built-in providers name themselves and their source as documented.", "quantifier": "all finite sequences of calls, all providers that do not fail (figments among them), all paths, all types made of the supported serde features", "why_tests_cant": "Each test has one sequence of a few calls; the claim ties every value of every result to one call of an arbitrarily long history.", "anchors": ["src/figment.rs: Figment::merge, join, adjoin, admerge, select, extract, extract_inner, find_value, find_metadata, get_metadata", "src/coalesce.rs: Coalescible", "src/value/tag.rs: Tag", "src/metadata.rs: Metadata, Source", "src/providers: Data, Env, Serialized"]}
{"id": "C71", "title": "What a document becomes", "statement": "A provider for a document (TOML, JSON, YAML or another serde format) gives exactly the dictionary the document is: every value the value written, of keys given twice the last, the order of keys without effect; nested providers give each section as the profile it names. A path that leads to something in the document finds it after merging, attributed to the provider. Documents with keys that are not text, or parts no value can be, are refused with the format's error.", "quantifier": "all documents of any size and depth, all formats, all histories before the merge", "why_tests_cant": "Tests read a few documents; the claim is about all of them, at any depth, with any repetition and order of keys.", "anchors": ["src/providers/data.rs: Data, Format, impl_format!", "src/value/de.rs: ValueVisitor, Value::deserialize_from", "src/value/value.rs: Deserialize for Value", "src/profile.rs: Profile Deserialize"]}
{"id": "C72", "title": "Types that are parsed or converted", "statement": "A type that is read by parsing text (IpAddr, types with FromStr) is extracted exactly when the value is text its parser accepts, and gives what the parser gives; otherwise the error has the parser's message, the path, and the provenance of the text. A type with a conversion from another type (serde's try_from, from, deserialize_with) is extracted exactly when the other type is and the conversion succeeds, and gives what it gives; errors of the other type stay as they are, and an error of the conversion has its message, the path and the provenance of the value.", "quantifier": "all parsers and conversions, all types converted from, all figments, paths, lossy or not", "why_tests_cant": "Parsers and conversions are the user's own functions; tests have a few of them on a few values.", "anchors": ["src/value/de.rs: ConfiguredValueDe::deserialize_any, SeqDe, MapDe", "src/error.rs: Error::custom", "src/figment.rs: Figment::extract, extract_inner, extract_lossy, extract_inner_lossy"]}
{"id": "C73", "title": "What equality of metadata and errors means", "statement": "Two errors are equal exactly if their chains are, one by one: with the same tag, profiles that differ in case at most, equal metadata, the same path and equal kinds, in which a floating point number found is compared as a number. Metadata is equal exactly if its names are the same and its sources are equal, whatever the interpolater and the location of the call; sources are equal if they are equal paths (repeated and trailing separators and inner `.` do not count), locations or texts. Equality of metadata is an equivalence; equality of errors is symmetric and transitive, and reflexive unless a NaN was found.", "quantifier": "all pairs and triples of errors (chains of any length), kinds, metadata and sources", "why_tests_cant": "Tests compare a few errors; the claim is about all pairs, and the laws about all triples.", "anchors": ["src/error.rs: Error PartialEq, Kind PartialEq, Actual PartialEq", "src/metadata.rs: PartialEq for Metadata, Source PartialEq"]}
{"id": "C74", "title": "Types that take data as it is: untagged enums", "statement": "A #[serde(untagged)] enum, or another type that first takes any data as it is and then decides what it is, is extracted exactly when its conversion accepts the data asked for, and gives just what it gives. All data is taken, in full, unless there is a 128-bit integer in it; then the error points at it. Nothing but the data matters: not which provider or profile it is from, and not whether extraction is lossy. When the conversion refuses the data the error is its message at the path asked for.", "quantifier": "all conversions, all data of any nesting, all figments and paths, lossy or not; for what is taken and for errors: all histories of the process", "why_tests_cant": "Conversions are the user's own types and the data is of any shape; that provenance and lossiness have no effect is a claim about all pairs of figments with the same data.", "anchors": ["src/value/de.rs: ConfiguredValueDe::deserialize_any, SeqDe, MapDe, Num::deserialize_any", "src/figment.rs: Figment::extract, extract_inner, extract_lossy, extract_inner_lossy"]}
{"id": "C75", "title": "a jail is always left again", "statement": "A thread that has entered a jail leaves it and lets the next one in after a number of its own steps that depends only on the operations of its closure, whatever other threads do, however the closure ends (return, error, panic) and also if restoring panics; so no thread is locked out, and under a fair schedule each one leaves its jail after boundedly many rounds, unless the process is aborted, which happens only if a closure ends with a panic. (Closures that use a jail themselves: see C76.)", "quantifier": "all numbers of threads, all closures, all answers of the operating system, all schedules of the threads", "why_tests_cant": "Progress is a statement about all schedules and all ways a closure can end.", "anchors": ["src/jail.rs: LOCK, try_with, Drop"]}
{"id": "C76", "title": "a jail inside a jail blocks for ever", "statement": "A closure run in a jail that itself calls Jail::try_with or Jail::expect_with on the same thread never gets past that call: from then on nothing ever happens in any thread that uses jails, so the outer call never returns, every other thread that waits for a jail waits for ever, and the environment and working directory stay those of the outer jail.", "quantifier": "all numbers of threads, all closures, all schedules before and after", "why_tests_cant": "Never returning is a statement about all continuations of all schedules; a test can only time out.", "anchors": ["src/jail.rs: LOCK, try_with, expect_with"]}
{"id": "C77", "title": "Structs with flattened fields", "statement": "A struct with #[serde(flatten)] fields is extracted exactly when what is asked for is a dictionary, the struct without the flattened fields can be extracted from it, and the flattened fields can be made of the other entries, all of which are taken as they are; it is just what is made of both. Of the flattened entries nothing but the data matters: not where it is from, nor whether extraction is lossy. An error is that what is asked for is no dictionary, or that of the struct without the flattened fields, or points at a 128-bit integer in a flattened entry, or is what is wrong with the flattened fields; the latter points at nothing inside, whichever entry is at fault.", "quantifier": "all fields and types of fields, all ways to make flattened fields of entries, all data, all figments of all histories of the process, all paths, lossy or not", "why_tests_cant": "The flattened types are the user's own and the data is of any shape; that provenance and lossiness have no effect is a claim about all pairs of figments with the same data.", "anchors": ["src/value/de.rs: ConfiguredValueDe::deserialize_any, MapDe, Num::deserialize_any", "src/figment.rs: Figment::extract, extract_inner, extract_lossy, extract_inner_lossy"]}
{"id": "C78", "title": "Figments built while files and variables change", "statement": "A figment is made of what its providers saw while they were joined or merged, and of nothing that changes before or after. A file provider that searches reads the file at the nearest place at which there was one when that place was looked at, and gives the data of the text the file has when it is read, whatever else comes and goes meanwhile; a file that stays is never missed, unless one nearer to the working directory is found. The source named for a value is the file it was read from, if no file comes or goes and the working directory stays during the call; contents may change. Values of the environment are those of one moment.", "quantifier": "all sequences of answers of the file system and the process (all changes by others between any two questions), all working directories, all file, string and environment providers, all calls on them, all orders in which a figment is built", "why_tests_cant": "The claims are about all interleavings with other threads and processes, which a test cannot schedule between two system calls of one call.", "anchors": ["src/providers/data.rs: Data::resolve, Provider for Data, Format::from_path", "src/providers/env.rs: Provider for Env, Env::iter", "src/figment.rs: Figment::provide"]}
{"id": "C79", "title": "Maps whose keys are not plain strings", "statement": "Extracting a map with keys of any type gives an entry for each entry of the dictionary, in the order of its keys: the key read as the type of the keys (strings and paths as they are, a character from text of one, the variant without content of that name, booleans by name in any case with bool_from_str_or_int, and what a parser or conversion makes of the text) and the value as it would be extracted alone. Otherwise extraction fails, with the first fault in that order, the key's before the value's, at the path of the entry, and with the source of the entry's value. With keys of types that no text is read as, only the empty dictionary is a map. A map is written if and only if all its keys are written as text, the last entry with a text being kept; else the error names the first key that is not. A map whose keys are written as texts that are read as those keys, no two as the same, comes back from Serialized.", "quantifier": "all types of keys and of values, all figments of all histories, all data, all maps", "why_tests_cant": "Ranges over all types of keys and values and all dictionaries, with the faults of keys and values in any order.", "anchors": ["src/value/de.rs: MapDe::next_key_seed, MapDe::next_value_seed", "src/value/ser.rs: MapSerializer::serialize_key, serialize_value, end", "src/util.rs: vec_tuple_map", "src/figment.rs: Figment::extract, extract_lossy, extract_inner, extract_inner_lossy"]}
{"id": "C80", "title": "Decimal numbers are read as the nearest floating point number", "statement": "Text that is a decimal number with a dot (sign, digits before or after the dot, exponent) is read as the floating point number nearest to what is written, of two the even one: parsing a value gives the nearest f64 for such text and gives a floating point number for no other text; a string extracted lossily gives the nearest f32 or f64, whichever is asked for. (The latter is false today for short strings as f64 and long ones as f32.)", "quantifier": "all texts, all figments and paths", "why_tests_cant": "There are infinitely many decimal texts, and being nearest is a claim about all other numbers of the type.", "anchors": ["src/value/value.rs: impl FromStr for Num, Value::to_num_lossy", "src/value/parse.rs: Parser::value", "src/value/de.rs: ConfiguredValueDe::deserialize_f32 (and others), Num::deserialize_any"]}
{"id": "C81", "title": "Numbers are extracted as floating point without needless loss", "statement": "Any integer of at most 64 bits is extracted as the f64 or f32 nearest to it, and unchanged if it has at most 53 (24) binary digits, zeros at the end not counted. An f64 is extracted as f64, and an f32 as f32, bit by bit; an f32 as f64 is the same number; an f64 as f32 is the nearest f32, and infinities and NaN stay what they are.", "quantifier": "all numbers of all types, all figments and paths, lossy or not", "why_tests_cant": "2^64 integers and as many floating point numbers; being nearest is a claim about all other numbers of the type.", "anchors": ["src/value/de.rs: Num::deserialize_any, ConfiguredValueDe", "src/value/value.rs: Num"]}
{"id": "C82", "title": "From a variable of the environment to the typed result", "statement": "After an Env is merged, at the key of each of its variables there is what the variable's text says, attributed to the environment, if no later variable is for an overlapping key, the text is not a dictionary, and the Env's profile counts there; what is found at paths that no variable overlaps stays as it is. There, extraction gives an integer exactly if the text is the integer's decimal text (white space around it aside) and the type can hold it; a boolean exactly if it is `true` or `false`; `None` exactly if it is white space or nothing; a floating point number exactly if it is a decimal number or an integer of 64 bits, and then the nearest one; a string exactly if it is quoted with escapes, a character in single quotes, or text that is no other value. (The last is false today for quoted text with a non-ASCII character before its first escape.)", "quantifier": "all environments, all Envs, all figments and profiles selected, all paths, all texts and integer types of at most 64 bits", "why_tests_cant": "It is about all environments merged over all configurations, and an equivalence for all texts: also that no other text gives the result.", "anchors": ["src/providers/env.rs: impl Provider for Env, Env::iter", "src/figment.rs: Figment::provide, Figment::merged, Figment::find_value, Figment::extract_inner", "src/value/parse.rs: parser, value", "src/value/de.rs: ConfiguredValueDe"]}
{"id": "C83", "title": "Defaults, changed only where something overrides them", "statement": "Let a value of a type that is written as a dictionary be provided as the defaults (`Serialized::defaults`), and any providers be merged after it. What is extracted at the type is that value, changed where the data for the default profile says so, provider by provider, then where the data for the selected profile does, and then where the data for the global profile does. Changing goes by the type: the fields of a struct that the data does not have are kept, those that it has are changed in turn, unknown ones are an error if the struct denies them; so are entries of maps, and new entries are added; anything else is replaced by what the data means; and extraction fails if the data means nothing of the type. The same is extracted when the defaults are joined after whatever else there is. (Not so today for enums with data: two variants are merged to one dictionary, and the one that sorts first is extracted; only that is proved.)", "quantifier": "all types with the data model of serde, with maps of any keys that are one text each, flattened maps and conversions that give back what they were made of; all values of them that come back; all providers and any number of them; all profiles selected; strict and lossy", "why_tests_cant": "It is about every type, every default value of it and every configuration merged over it, at any depth, and says what is kept as well as what is changed.", "anchors": ["src/providers/serialized.rs: Serialized::defaults, impl Provider for Serialized", "src/coalesce.rs: impl Coalescible for Value, impl Coalescible for Map", "src/figment.rs: Figment::merge, Figment::join, Figment::merged, Figment::extract", "src/value/ser.rs: ValueSerializer", "src/value/de.rs: ConfiguredValueDe, MapDe"]}
{"id": "C84", "title": "The order of providers matters only where they conflict", "statement": "Call two providers agreeing if, in every profile and at every path where both have something, both have a dictionary or both have the same value. Providers that agree two by two, and do not name different profiles, may be merged in any order without changing the selected profile, the result of any extraction or the kind and path of its error, whatever was added before and is added after; likewise they may be joined, adjoined or admerged in any order. Two providers that do not agree give different data when merged, or joined, in the two orders. A merge and a join next to each other may always be swapped, agreeing or not, unless before them there was something other than a dictionary at a path where both have one.", "quantifier": "all providers that do not fail, any number of them, all permutations, all histories before and after, all four ways of adding, all types without the crate's own, all paths, strict and lossy", "why_tests_cant": "It is about all permutations of any number of providers with any data, in any context of other calls.", "anchors": ["src/figment.rs: Figment::provide, Figment::merge, Figment::join, Figment::adjoin, Figment::admerge, Figment::merged, Figment::extract", "src/coalesce.rs: impl Coalescible for Value, impl Coalescible for Map"]}
{"id": "C85", "title": "An extraction at a path looks only along the path", "statement": "What extract_inner(path) gives, or the kind and path of the error it fails with, depends only on what the providers have along the path: on the way to it, at it, and below it. Histories that differ only in what providers have elsewhere give the same. A provider that names no profile and has nothing along the path in any profile may be added at any point of a history, by merge, join, adjoin or admerge, without changing anything extracted at the path, nor the selected profile. What is on the way to the path does matter: a value other than a dictionary there hides what is below.", "quantifier": "all histories of providers that do not fail, all paths, all providers added at any point in any of the four ways, all types without the crate's own, strict and lossy", "why_tests_cant": "It says what cannot influence a result, whatever the rest of the configuration is: all data elsewhere and all contexts.", "anchors": ["src/figment.rs: Figment::provide, Figment::merged, Figment::find_value, Figment::extract_inner, Figment::extract_inner_lossy", "src/coalesce.rs: impl Coalescible for Value, impl Coalescible for Map", "src/value/value.rs: Value::find"]}
{"id": "C86", "title": "A struct is extracted field by field, a map entry by entry", "statement": "Extracting a struct succeeds if and only if for each of its fields extract_inner at the field's name and type succeeds, or there is nothing there and the field has a default or is an Option; and, if unknown fields are denied, there are no others. The result has exactly those values. The same holds below a path where there is a dictionary, with the paths of the fields, and for maps with the keys that are there; and for the lossy extractions. It is for names that stand for themselves in paths: not empty and without a dot. A field renamed to a name with a dot is found in the struct but not at the path.", "quantifier": "all figments with well-formed data, all structs of any number of fields of any types, all paths of dictionaries, strict and lossy", "why_tests_cant": "It relates two ways of reading every configuration by every struct type, to any depth.", "anchors": ["src/figment.rs: Figment::extract, Figment::extract_lossy, Figment::extract_inner, Figment::extract_inner_lossy, Figment::contains", "src/value/de.rs: ConfiguredValueDe, MapDe", "src/value/value.rs: Value::find"]}
{"id": "C87", "title": "Which environment variables matter, and when their order does", "statement": "An Env provider's data depends only on the variables that its prefix and filters let pass: environments that have the same of them, in the same order, give the same data, whatever other variables there are; the values of the others are not even parsed. And the order in which the system lists the variables does not matter, unless the keys of two that pass overlap: one is the other, or a beginning of it.", "quantifier": "all environments, all chains of prefixed/raw, filter, map, filter_map, split, only, ignore, lowercase, profile and global, all values (also those whose parsing panics), all permutations", "why_tests_cant": "A test runs in one environment with one order of its variables; this is about all of them.", "anchors": ["src/providers/env.rs: Env::iter, Env::prefixed, Env::filter, Env::only, Env::ignore, Env::split, impl Provider for Env"]}
{"id": "C88", "title": "What is extracted from a figment built in any way", "statement": "However a figment is built, with providers and other figments added in any of the four ways, profiles selected and the figment focused on keys, in any order and nested to any depth: what is extracted, and how extraction fails, is determined by a simple rule per step about what is at each path of each profile and which profile is selected. Figments for which the rules give the same say the same on every extraction; a figment merged into a new one says what it said; focusing twice says what focusing on the joined path says; and if any provider failed, at any depth, every extraction fails.", "quantifier": "all ways to build a figment (trees of merge, join, adjoin, admerge, select and focus), all providers, all types, all paths", "why_tests_cant": "Tests build a few figments; the ways to nest and combine the calls are unbounded.", "anchors": ["src/figment.rs: Figment::provide, Figment::select, Figment::focus, Figment::merged, Figment::extract, Figment::extract_inner, impl Provider for Figment"]}
{"id": "C89", "title": "Which provider has the last word, across profiles", "statement": "A value that is not a dictionary is found at a path exactly if one of the profiles that count (default, the selected one, global) has it there and the profiles put over that one have nothing there or in the way. So what is merged for global is found whatever there was and whatever is selected; what is merged for the selected profile or default is found unless a profile over it has something to say at the path; what is joined for default never changes what is found, and what is joined for another profile changes it only where the value came from a profile below (adjoined: the same, except that arrays grow). After any history of calls, what is extracted at a path, at any type, is what the value of the provider with the last word there means: one that is merged, or the first to say anything, in a profile that counts, if what comes later leaves it and nothing is said there for the profiles put over its own.", "quantifier": "all figments with readable data, all histories, all providers, all selected profiles, all paths, all types", "why_tests_cant": "How the order of calls and the layering of profiles interact must hold for all data in all profiles.", "anchors": ["src/figment.rs: Figment::provide, Figment::merged, Figment::find_value, Figment::select"]}
{"id": "C90", "title": "Defaults, a file, the environment: each field from the last source that has it", "statement": "Let any number of sources be merged one over the other and the whole be extracted as a struct. The result has, for each field, what the value of the last source that has the field means, read as the field's type; for a field that no source has, its default, or None for an Option. There is a result exactly if there is one for every field and, if unknown fields are denied, no source has another key.", "quantifier": "all numbers of sources, all data for the default profile, all structs, strict and lossy; fields for which the last source has a dictionary are the subject of C83", "why_tests_cant": "A test has a few sources and one struct; this is for every struct and every combination of what each source has and lacks.", "anchors": ["src/figment.rs: Figment::merge, Figment::merged, Figment::extract, Figment::extract_lossy", "src/coalesce.rs: impl Coalescible for Map", "src/value/de.rs: ConfiguredValueDe, MapDe"]}
