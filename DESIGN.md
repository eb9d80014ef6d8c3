# Formal model of uwe-app/bracket in Lean 4

Layout (all under `/verif/lean/Verif`):

* `Model/` – the model, function by function; every definition cites the Rust lines it models.
  `Basic` (strings, slices), `Json` (json.rs + the used part of serde_json), `Escape`, `Lexer`,
  `Ast` (ast.rs, trim.rs), `ErrorInfo` (error/source.rs), `Parser` (parser/*.rs),
  `Render` (render/*.rs), `Helpers` (helper/*.rs), `Registry` (registry.rs, template.rs, the `fs`
  feature), `Output` (output.rs).
* `Spec/` – small, independent specifications the theorems refer to.
* `Lemmas/` – auxiliary results.
* `Props/` – the property theorems (one file per group), each followed by `example`s showing
  that its hypotheses are met by a concrete case.

## Trusted base

* Lean 4.33.0's kernel. No axioms are added. The theorems listed in MANIFEST.json depend at most
  on `propext`, `Classical.choice`, `Quot.sound`.
* The reading of the Rust code into the model (the code is not run here).
* Contracts of code outside the repository, which the model assumes:
  * `logos` (lexer generator): at each position the longest match over the mode's patterns wins,
    ties by priority, and an unmatched character gives a one-character `Error` token.
    The token patterns themselves are modelled as regular expressions (derivatives).
  * `serde_json`: `Value`, `Map` = sorted map, `Number` = u64 / negative i64 / finite f64,
    `to_string`, `to_string_pretty`, number parsing of integers. Parsing and printing of floats,
    the width function of `unicode-width`, and the debug/release overflow switch are parameters
    (`class Host`); theorems hold for every instance.
  * Rust `str` slicing panics off character boundaries or out of range (modelled as `none`/`panic`).
* Theorems are stated for any `Host`.

## What is modelled

Lexer (all nine modes, `collect`, `normalize`), parser (`Parser::new/parse/next`, block, call,
path, string, link modules, lint mode, `path::from_str`), AST accessors used by the renderer,
error snippets, JSON helpers, escaping, renderer (`Render` with all its public methods that
helpers can call), scopes, context, type assertions, trimming, built-in helpers, handlers,
registry, templates, destinations.

User-defined helpers are arbitrary Rust code. They are modelled as *interaction trees* (`Prog`):
a helper computes anything, and interacts with the renderer through its public methods in any
order, catching or propagating each error. A helper that itself loops forever without calling the
renderer is not expressible (and no engine can stop it).

`RS.trace` is a ghost log of the calls entered and left, used to state C24–C26; nothing reads it.
Destinations are arbitrary functions from the writes so far and the next text to a result (`Sink`);
`Output.lean` models `StringOutput` and `Writer` over a byte device on top of that.

Recursion in the renderer is bounded by a fuel argument (`sem n`). C26 shows every render ends for enough
fuel; other theorems about results are stated with `Eval`, "for some fuel, and then for every larger one".

## Assumptions some theorems make about helpers

* C26 (termination): helper programs are well-founded trees, so a helper cannot itself loop forever.
* C27 (balance): helpers pop the scopes they push and unregister nothing (`Balanced`); C24, C25 need nothing.
* C53, C54, C61–C67, C75, C77–C80 (end-to-end): the helpers are the built-in ones and helpers of the application
  (`CustomFn`), in addition to the built-in ones or in place of them (`Custom`, `Equipped`): from its arguments such a
  helper writes texts and computes a value or an error and, as a block, writes texts and renders its content in any
  scopes any number of times, or the else clauses. Handlers for links, unknown names and blocks are of the same kind. A
  helper that decides what to do next by the outcome of rendering its content, or that evaluates paths itself, is outside
  (it is inside for C24–C27, C69 and the other theorems about `Prog`).
* `KeysOk`: the keys of hash arguments in the AST are sorted as the parser leaves them.

## End-to-end specification

`Spec/Surface.lean` is the concrete syntax: an inductive type of templates as an author writes them
(white space inside tags, `~`, comments, escaped tags, links, raw blocks, partials, clauses; paths with
`../`, `./`, `this`, `@x`, separators `.` and `/`, parts in brackets or quotes) with a printer and a well-formedness test. C56: printing and compiling gives back a tree that says the same.
`Spec/Core.lean` is a reference interpreter on that syntax without `~` and partials (C53);
`Spec/Full.lean` is the one for all of it (C61). Both are a page each and do not use the model's renderer.
Not in the surface syntax: absolute paths `/a/b` as the target of a call (they are there as arguments and hash values), a path that begins with a quoted or bracketed part, blocks
whose name is a path or a sub-expression.

## What is not modelled

* The file system itself: reading a file is an arbitrary function of its path, and a directory listing an
  arbitrary list of entries or errors. What `add`, `load` and `read_dir` do with them is modelled (C35–C37, C60).
* `Debug` of the AST and of `HelperError` (never reached from `Error`), and the texts of I/O errors.
* Allocation failure, native stack overflow, integer overflow of byte offsets.
* Helpers calling `rc.registry().once/render` directly (fresh call stack): see finding F19.
* Floats: only finite doubles as sign/mantissa/exponent; parsing/printing abstract.
* `HashMap` iteration order of hash parameters: insertion order in the model; C51 shows the
  result is independent of it for literal and path parameters (per call: `C51_order`; end to end, all calls of a
  template and its partials: `C51_written`).

## Per-property plan

| id | model | proof |
|----|-------|-------|
| C01 | `lex` | induction on the rest of the input; each token has ≥ 1 char |
| C02 | `normalize` | induction with pending text generalised |
| C03 | `compile`, `lint`, `pathFromStr` with fuel | fuel adequacy: every loop consumes tokens; induction on tokens |
| C04 | whole pipeline | lexer emits only text tokens, parser one text node, renderer writes it |
| C05 | `escapeHtml` | induction on the string, independent decoder |
| C06 | `renderNode` | unfolding under explicit hypotheses on the tag's source text |
| C07, C08 | `stringify`, `isTruthy` | cases against an independent relation |
| C09–C13 | `lookup` | against a declarative search spec (`Spec/Lookup`) |
| C14, C15, C48 | `call`, `block` | case analysis, all states |
| C16 | `if`, `unless`, `inverse` | induction over the clause list |
| C17, C18 | `each`, `with` | induction over elements; run of the helper equals a fold |
| C19–C22 | helpers | case analysis; order facts on scaled integers |
| C23 | `assertType` | false as stated: negation with witness, exact characterisation |
| C24, C25 | `Render` | invariant over all executions (call stack multiplicities) |
| C26 | `Render` | lexicographic measure (room left in call stack, AST size), fuel monotonicity |
| C27 | `Render` | induction over executions for well-behaved helpers |
| C28 | `Render` | invariant: output extends; error stops list |
| C29, C30 | `renderPartial` | unfolding; C30 false for `@partial-block`: witness |
| C31 | `runProg` for buffer/once | definitional in state-passing model plus invariants |
| C32–C34 | `renderNode`, `writeStr`, events | case analysis, trim lemmas |
| C35–C37 | `Registry` | refinement to `name → option template` over op lists |
| C38 | `lint` | simulation of the two loops |
| C39 | `errorInfo` | induction on scans |
| C40 | `compile` | false: witnesses; partial result |
| C41, C42 | string and link parsing | induction on tokens |
| C43, C50, C51 | call building, `arguments`, `hash` | induction on lists; C51 end to end: `Spec/KeyOrder` puts hash arguments in order, and the reference interpreter of C61 cannot tell (relational induction, `Lemmas/KeyOrder`) |
| C44 | `compile` | false: witness (unclosed block); partial: top-level spans contiguous |
| C45 | `advance` | invariant over executions of the parser |
| C46 | `Sink` | case analysis; short writes: witness |
| C47 | local helpers | false as documented: witness; shadowing proved |
| C49 | `evaluate` | same `lookup` on parsed path |
| C52 | `compile` | invariant; false for text beginning with newline: witness |
| C53, C54 | whole pipeline | printer + denotational semantics, induction over templates; C54 also for everything that compiles: an invariant of the renderer (what was written is made of pieces of sources and of texts free of markup) over arbitrary destinations and helpers that keep it |
| C55 | `lex` | the token patterns as regular expressions; derivative = declarative longest match |
| C56 | `compile` ∘ printer | induction over the surface template, token by token |
| C57 | `log`, handlers | case analysis |
| C58 | `compile` | invariant of the tree built: spans in the source, nested, ordered (`Spec/Tree`) |
| C59 | `compile` | symbolic run of the parser up to the unclosed construct (`Spec/Tags`) |
| C60 | `readDir`, `load` | induction over the listing |
| C61 | whole pipeline, `~` and partials | induction on names left × structure of the template |
| C62 | `Spec/Full` + C61 | simulation between a template and the same without `~` |
| C63–C64, C66–C67 | `Spec/Mentions` (what a template mentions) + C61 | one relational induction over the interpreter (`Lemmas/Tied`): two runs on related scenes and libraries |
| C65 | `Spec/Full` + C61 | induction over the first template; the mood is the initial one after it |
| C68 | `lint` | induction over the faults (`Spec/Faults`: unmatched end tags, block tags without a plain name): each error leaves the parser right after the faulty tag |
| C69 | rendering, all of `render/mod.rs` and the slices of `ast.rs` | an invariant over all executions (`Lemmas/Robust`): every slice a render takes of a compiled tree succeeds, from the well-formedness of compiled trees (`TreeWF`); helpers are arbitrary interaction trees that do not panic themselves (`Spec/Robust`); a ghost trace names the helper to blame |
| C70 | the whole parser, `ErrorInfo` | a simulation of two runs, function by function (`Lemmas/Relabel`): same tokens, same byte, lines shifted |
| C71 | `Display` of templates and nodes (`Model/Display`) | from the well-formedness of compiled trees (`TreeWF`) |
| C72 | equality of errors (`Model/Display`) | false as stated: negation with witness, exact characterisation |
| C73 | texts of errors (`Model/Message`; the text of an I/O error is a parameter) | case analysis; induction over the wrapping; injectivity of the message table |
| C74 | the methods of `Context` (`Model/Render`, `Model/Context`), `try_evaluate` | case analysis; C08, C09, C49 |
| C75 | `{{> (q b) a}}` and `{{(q b) a}}` in the surface syntax (`STm.dyn`) | C61 on both templates; congruence of the reference interpreter |
| C77 | `helpers_mut().insert/remove`, `CustomFn` (helpers as functions of their arguments that may write texts and render their block) | C61 in both registries; the reference interpreter does not look the name up |
| C78 | `Spec/Full` + C61 | the reference interpreter commutes with putting a template in a standard layout, by induction over templates and nesting of partials |
| C79 | `Spec/Full` + C61 | simulation: the scene of the partial has one more empty scope, which portable paths do not see; induction over templates and nesting of partials |
| C80 | `handlers_mut()`, `Spec/Full` + C61 | two runs of the reference interpreter that differ in the handlers, by induction over templates and nesting of partials; evaluation of the reference interpreter where the handler applies |
| C81 | `escape.rs`, `set_escape`, `Spec/Full` + C61 | simulation of two runs of the reference interpreter with different escape functions and braces; for the second half also of two runs of the modelled renderer, for everything that compiles (`Lemmas/Unescaped`) |
| C82 | `Registry::new`, `set_strict`, `set_escape` | evaluation of the reference interpreter, C61 |
| C86 | `Spec/Full` + C61 | simulation of two runs of the reference interpreter in scenes that no path, helper or partial can tell apart (`Lemmas/Named`: `Twins`, usable for any such relation) |
| C87 | Spec.Alone: which paths look only at the value given; two scenes, one inside the partial (outer data, one scope with the value) and one with the value as its data | simulation of the reference interpreter of C61 between scenes that the paths mentioned cannot tell apart (Lemmas/Alike), then C61 |
| C88 | Spec.Where: the tokens read when an error is raised, the tag they end in, the position and the line | the triples of C52 (Lemmas/ParserWF, CallWF, NodeWF, TreeWF) with a postcondition for errors: inside a tag the position lies between its beginning and the next token |
| C89 | Spec.Alone: which paths look only at the item; items, inTurn: the renderings one after the other | the simulation of C87 with the variables of the round, the mood being at rest between rounds (rests_tm of C65), induction over the list, then C61 |
| C90 | Spec.Branch: the branch taken, as an inductive relation on the values of the conditions | the simulation of C87 (Lemmas/Alike) between the scene inside the block and the one outside; induction over the clauses; then C61 |
| C91 | Spec.Unfilled: the template with every block partial replaced by the plain call | simulation of the reference interpreter of C61 between moods that differ in the content kept for @partial-block, then C61 |
| C92 | the registry's tables as association lists; `HoldSame` compares them only by lookups; `Change`/`changed` are the public mutators | every function of the renderer reads the registry only by looking names up (congruence, induction on the recursion depth and on helper programs); changes about different subjects commute, induction on the permutation |
| C93 | Spec.Uses: names used by a call, a node, a helper program; registries that agree on them | relational invariant over all executions: both runs take the same steps as long as only agreed names are asked for (induction on recursion depth, helper programs, node lists); compile_wf places every path inside the source, so a name that is not in the text is not used |
| C94 | Spec.Direct: helpers that put a ? after everything that can fail; the texts handed over | relational invariant over two executions: they take the same steps until the first stops, and the second only appends (Lemmas.Direct, induction on recursion depth, helper programs and node lists); the same simulation relates strict and lax registries (C64_compiled) |
| C95 | Spec.Reads: the paths a call or node looks up; helpers that look up no others and do not look into the data or at the name | relational invariant over two executions with different data and names: equal states after every step, equal results but for the name in an error (Lemmas.Reads, induction on recursion depth, helper programs and node lists) |
| C96 | Spec.Filled: literals in the place of argument paths; which literals are known | simulation of the reference interpreter of C61 between a template and the filled-in one, all scenes having the same root data; then C61 |
| C85 | `Spec/Full` + C61 | the rules as an inductive relation (`Recast`); simulation of two runs of the reference interpreter whose call stacks differ, by induction over the derivation and the nesting of partials |
| C84 | `compile`, `blockF`, `partialName` | C84_compiled from `compile_wf` by induction on the nesting; C84_named / C84_computed with `fails_at` (any template before, any open blocks around); the render errors by unfolding one node |
| C83 | `Spec/Full` + C61 | simulation; without `~` nothing is trimmed, so a comment changes no state |
| C76 | `Scope`, `push_scope`, `pop_scope`, `scope_mut` (`Model/Render`) | running the helper program; C49, C09 |

## Findings (claims the code violates; negation proved with a witness, see MANIFEST notes)

F1 unclosed block silently dropped (C44); F2 snippet formatting panics (C39/C40);
F3 number literals `01`, `1e999` panic (C40); F5 `lookup` with non-string field panics (C19);
F6 `{{@root}}` alone is missing (C12); F7 strict mode ignores `{{this.missing}}` (C15);
F8 256 `../` overflow a u8 (C11); F9 type assertion requires all kinds (C23);
F10 `current_name` wrong after `@partial-block` (C30); F11 stacks not restored on error (C27);
F12 local helpers outlive their parent (C47); F14 string literal ending with an escape loses it (C41);
F16 `Writer` may drop bytes (C46); F17 integers above 2^53 compare equal (C20);
F18 text beginning with a newline gets line + 1 (C52); F22 `[[a|]]` panics with a link handler (C42).
F26 the recorded text of a path ending in a quoted part stops after the opening quote (`SPath.shown`);
F27 `evaluate` ignores text after the path and panics on some syntax errors (C49);
F28 the content of a block partial stays visible as `@partial-block` to later siblings (C65);
F29 `\]` inside `[...]` is an escape only right after `[` or another escape (`SPart` well-formedness);
F30 `RenderError` values other than `PartialNotFound` are not equal to themselves although `Eq` is claimed (C72);
F31 `Display` of a block drops its tags and `else` clauses (C71);
F33 `{{#> (f x)}}..` (a computed partial with content) never compiles (BlockName), although the error texts say that block target sub expressions are supported for partials (C84).
F34 `{{else unless x}}` is never rendered: without a block `unless` returns nothing, which is falsy (C85).
F35 A partial registered as `unknown` (the default file name) has no file name, and helpers in it see the name of the template that was rendered (C30).
F32 the arguments `a` of `{{(q b) a}}` are parsed but never evaluated (C75).
F36 A syntax error in a tag broken over lines shows one line with the number of another; a block without a name is shown at the start of the source, an unended empty comment at an earlier place (C88).
