{"id": "C01", "title": "Lexing loses nothing", "statement": "Lexing any source yields tokens whose byte ranges are non-empty, contiguous, start at 0, end at the source length and lie on character boundaries, so concatenating the source text of the tokens gives back the source.", "quantifier": "every source string (any Unicode text, any length)", "why_tests_cant": "the input space is unbounded and the lexer switches between nine modes; a gap or overlap needs a particular token sequence", "anchors": ["src/lexer.rs: lex, collect, Lexer::next"]}
{"id": "C02", "title": "Normalised lexing loses nothing and merges text", "statement": "collect(source, true) also reproduces the source exactly, never yields two adjacent text tokens, and leaves every non-text token in place.", "quantifier": "every source string", "why_tests_cant": "merging depends on arbitrary interleavings of text and non-text tokens", "anchors": ["src/lexer.rs: Lexer::normalize, collect, Token::is_text"]}
{"id": "C03", "title": "Compilation always terminates", "statement": "Compiling, linting or evaluating a path on any source finishes: the parser's loops and recursion are bounded by a function of the number of tokens.", "quantifier": "every source string and parser options", "why_tests_cant": "termination is a property of all inputs; a test can only see it for the inputs it runs", "anchors": ["src/parser/mod.rs: Parser::advance, Parser::parse", "src/parser/call.rs: arguments, value, key_value, target, sub_expr", "src/registry.rs: Registry::lint"]}
{"id": "C04", "title": "Plain text renders verbatim", "statement": "A source that contains neither '{{' nor '[[' compiles, and rendering it with any registry and data writes exactly the source.", "quantifier": "every such source, every registry (helpers, handlers, escape function, strict mode) and every data value", "why_tests_cant": "quantifies over all texts, including backslashes, braces, newlines and any Unicode", "anchors": ["src/lexer.rs: Block", "src/parser/mod.rs: advance", "src/render/mod.rs: render_node, write_str", "src/registry.rs: once"]}
{"id": "C05", "title": "HTML escaping is safe and loses nothing", "statement": "The default escape output never contains a raw <, >, double quote or single quote, every & in it begins one of the five entities, decoding the entities gives back the input, and escaping a concatenation is the concatenation of the escapes.", "quantifier": "every string", "why_tests_cant": "safety against injection must hold for all strings", "anchors": ["src/escape.rs: html, noop"]}
{"id": "C06", "title": "Two braces escape, three do not", "statement": "For a statement whose value is v, {{x}} writes escape(stringify(v)) and {{{x}}} writes stringify(v); nothing is written when the value is missing.", "quantifier": "every value, escape function, registry without a helper of that name, and scope stack", "why_tests_cant": "the choice depends on a slice of the source text of the tag", "anchors": ["src/render/mod.rs: render_node, write_str", "src/parser/ast.rs: Call::is_escaped"]}
{"id": "C07", "title": "Values are printed by a fixed rule", "statement": "A string prints as itself, null/true/false as those words, integers in decimal, an array as Array[n] with its length, an object as Object.", "quantifier": "every JSON value", "why_tests_cant": "values nest without bound", "anchors": ["src/json.rs: stringify, unquote"]}
{"id": "C08", "title": "Truthiness", "statement": "A value is falsy exactly when it is null, false, a number equal to zero or the empty string; every array and object, even empty, is truthy.", "quantifier": "every JSON value, including all three number representations", "why_tests_cant": "unbounded domain", "anchors": ["src/json.rs: is_truthy"]}
{"id": "C09", "title": "Variable resolution order", "statement": "A plain path resolves to the first match searching scopes from innermost to outermost, in each scope the locals before the base value, and last the root data; it is missing only if none matches.", "quantifier": "every path, scope stack and root data", "why_tests_cant": "precedence depends on arbitrary stacks of scopes with overlapping keys", "anchors": ["src/render/mod.rs: Render::lookup", "src/json.rs: find_parts"]}
{"id": "C10", "title": "Explicit this never inherits", "statement": "this / ./ paths are resolved against the base value of the innermost scope (the root data if it has none) and never fall back to an outer scope.", "quantifier": "every explicit path and scope stack", "why_tests_cant": "needs all shapes of scope stack", "anchors": ["src/render/mod.rs: Render::lookup"]}
{"id": "C11", "title": "Parent paths count scopes", "statement": "A path with n '../' is resolved in exactly the scope n levels out (the root data being the outermost) and nowhere else; with more '../' than scopes it is missing.", "quantifier": "every n, path and scope stack", "why_tests_cant": "unbounded n and stack depth; the counter is a u8", "anchors": ["src/render/mod.rs: Render::lookup", "src/parser/path.rs: parents"]}
{"id": "C12", "title": "@root paths use the root data only", "statement": "@root.a.b is resolved from the template data whatever the scopes hold, and @root alone is the data itself.", "quantifier": "every path, scope stack and data", "why_tests_cant": "must hold under every nesting", "anchors": ["src/render/mod.rs: Render::lookup", "src/json.rs: find_parts"]}
{"id": "C13", "title": "Local variables and absolute paths", "statement": "@name paths see only the innermost scope's locals; absolute paths (/a/b) never resolve to data.", "quantifier": "every path and scope stack", "why_tests_cant": "all scope stacks", "anchors": ["src/render/mod.rs: Render::lookup", "src/render/scope.rs: Scope"]}
{"id": "C14", "title": "Helpers shadow variables, this. bypasses helpers", "statement": "A simple name that is registered as a local or registry helper calls that helper even if a variable has the same name, local helpers first; ./name and this.name always read the variable.", "quantifier": "every registry, scope stack, call", "why_tests_cant": "depends on all combinations of registered names and data keys", "anchors": ["src/render/mod.rs: call, has_helper, invoke"]}
{"id": "C15", "title": "Strict mode", "statement": "With strict mode off a missing variable renders as nothing and is never an error; with it on, a statement naming a missing variable fails with VariableNotFound, a missing block helper with HelperNotFound, and a resolvable one never does.", "quantifier": "every path, data and scope stack", "why_tests_cant": "needs all lookups that can fail", "anchors": ["src/render/mod.rs: call, resolve, block_helper_missing"]}
{"id": "C16", "title": "Conditionals render exactly one branch", "statement": "if/unless with any number of else-if clauses renders the block when the argument is (un)truthy, otherwise the first clause with a truthy condition, otherwise the last else, otherwise nothing; later conditions are not evaluated.", "quantifier": "every clause list and data", "why_tests_cant": "the number of clauses is unbounded", "anchors": ["src/helper/if.rs", "src/helper/unless.rs", "src/render/mod.rs: inverse"]}
{"id": "C17", "title": "each iterates in order with the right locals", "statement": "each over an array or object renders the block once per element, in index (key) order, with @index, @first, @last (and @key) and this set for that element; other values render nothing; the scope stack is restored.", "quantifier": "every array/object of any length and every inner template", "why_tests_cant": "unbounded lengths", "anchors": ["src/helper/each.rs", "src/render/scope.rs"]}
{"id": "C18", "title": "with sets the scope", "statement": "with v renders its block once with this = v and the scope stack restored afterwards, and nothing when v is null.", "quantifier": "every value and inner template", "why_tests_cant": "all values and templates", "anchors": ["src/helper/with.rs"]}
{"id": "C19", "title": "lookup helper", "statement": "lookup target field returns the named member or element, reports LookupField when there is none and a type error when the field is not a string; it never panics.", "quantifier": "every pair of values", "why_tests_cant": "all value pairs", "anchors": ["src/helper/lookup.rs", "src/json.rs: find_field"]}
{"id": "C20", "title": "Comparison helpers form a total order", "statement": "On numbers exactly one of lt, eq, gt holds; lte = lt or eq, gte = gt or eq, ne = not eq; eq is an equivalence, lt is transitive; non-numbers are a type error; integers below 2^53 compare exactly, larger ones as the double nearest to them (ties to even).", "quantifier": "every pair and triple of JSON numbers", "why_tests_cant": "numeric domain with three representations", "anchors": ["src/helper/comparison.rs"]}
{"id": "C21", "title": "Logical helpers", "statement": "and, or, not compute the Boolean connective of their arguments' truthiness and always return a boolean.", "quantifier": "every pair of values", "why_tests_cant": "all values", "anchors": ["src/helper/logical.rs"]}
{"id": "C22", "title": "Arity is enforced before any effect", "statement": "A built-in helper called with a wrong number of arguments fails with an arity error naming the helper and writes nothing; with a right number it never fails with an arity error.", "quantifier": "every built-in helper, argument list and block", "why_tests_cant": "argument lists of any length", "anchors": ["src/render/context.rs: arity", "src/helper/*.rs"]}
{"id": "C23", "title": "Type assertions accept any of the listed types", "statement": "assert(value, kinds) succeeds exactly when the type of the value is one of the given kinds.", "quantifier": "every value and list of kinds", "why_tests_cant": "all lists of kinds", "anchors": ["src/render/assert.rs: assert", "src/render/context.rs: try_get, try_param, try_value"]}
{"id": "C24", "title": "Partial cycles are reported", "statement": "While any partial is being rendered no partial of the same name is started again: the attempt is a PartialCycle error, so a partial name occurs at most once in the call stack.", "quantifier": "every set of templates, including mutually recursive ones, and every helper", "why_tests_cant": "cycles of any length through helpers and blocks", "anchors": ["src/render/mod.rs: render_partial"]}
{"id": "C25", "title": "Helper recursion is bounded", "statement": "No helper is nested more than 32 deep with the same name and kind (block or statement); the 33rd nested call is a HelperCycle error.", "quantifier": "every set of templates and helpers", "why_tests_cant": "recursion patterns are unbounded", "anchors": ["src/render/mod.rs: invoke, STACK_MAX"]}
{"id": "C26", "title": "Rendering terminates", "statement": "Rendering any template finishes with output or an error, for any helpers that each do finitely much work between calls back to the renderer and register local helpers under finitely many names.", "quantifier": "every registry, template set (cyclic or not), data, helper", "why_tests_cant": "termination is not testable", "anchors": ["src/render/mod.rs"]}
{"id": "C27", "title": "Successful renders leave the renderer balanced", "statement": "After a node renders successfully, with helpers that pop what they push and do not swallow errors, the scope stack and the call stack are what they were before.", "quantifier": "every node, helper and state", "why_tests_cant": "all nestings", "anchors": ["src/render/mod.rs: invoke, render_partial", "src/helper/each.rs", "src/helper/with.rs"]}
{"id": "C28", "title": "Output only grows; an error stops it", "statement": "Rendering only appends to the destination; when rendering fails with an error the nodes after the failing one contribute nothing, and what was written is what the nodes before it wrote plus a partial write of the failing one.", "quantifier": "every node list, state, and failure point", "why_tests_cant": "every failure point", "anchors": ["src/render/mod.rs: render, template, write_str"]}
{"id": "C29", "title": "Partial context", "statement": "{{> name ctx k=v}} renders the named template with this = ctx and the hash values as locals; without a context argument this is the object of the hash values; outer scopes and root data stay visible behind them and are unchanged afterwards.", "quantifier": "every template, context, hash and scope stack", "why_tests_cant": "all combinations", "anchors": ["src/render/mod.rs: render_partial", "src/render/scope.rs: From"]}
{"id": "C30", "title": "current_name tracks partials", "statement": "current_name() is the file name of the innermost partial being rendered, or the template name outside partials or for unnamed templates, and is restored after a partial ends.", "quantifier": "every nesting of partials", "why_tests_cant": "all nestings", "anchors": ["src/render/mod.rs: current_name, render_partial"]}
{"id": "C31", "title": "buffer and once are isolated", "statement": "Render::buffer and Render::once never write to the outer destination or change the outer renderer's state, whatever the inner template does.", "quantifier": "every node, content and state", "why_tests_cant": "all inner templates", "anchors": ["src/render/mod.rs: buffer, once", "src/registry.rs: once_stack"]}
{"id": "C32", "title": "Comments vanish; escaped tags print literally", "statement": "Comments write nothing; \\{{...}} writes the tag text without the backslash; \\[[...]] writes the link text without the backslash; an unhandled link is written as is.", "quantifier": "every comment/tag/link text", "why_tests_cant": "all contents", "anchors": ["src/render/mod.rs: render_node", "src/parser/block.rs: comment, raw_comment, raw_statement"]}
{"id": "C33", "title": "Raw blocks are verbatim", "statement": "A raw block without a helper writes exactly the text between its tags (less whitespace at the ends where ~ asks for it); with a helper that text is what the helper receives.", "quantifier": "every inner text", "why_tests_cant": "inner text may contain any tag syntax", "anchors": ["src/render/mod.rs: block, block_helper_missing", "src/parser/block.rs: raw"]}
{"id": "C34", "title": "Trimming only removes whitespace where asked", "statement": "Every write is the given string less leading/trailing whitespace; when neither neighbour asks for trimming it is the string itself.", "quantifier": "every string and trim state", "why_tests_cant": "all strings and states", "anchors": ["src/render/mod.rs: write_str", "src/parser/iter.rs: EventIter", "src/trim.rs"]}
{"id": "C35", "title": "The registry is a map of templates", "statement": "Any sequence of insert, remove and get behaves like a map from names to compiled templates: get returns the last successful insert not since removed; a failing insert changes nothing.", "quantifier": "every sequence of operations", "why_tests_cant": "histories are unbounded", "anchors": ["src/registry.rs: insert, remove, get"]}
{"id": "C36", "title": "Rendering a missing template is an error", "statement": "render and render_to_write on a name that is not registered return TemplateNotFound with that name and write nothing; on a registered name they never do.", "quantifier": "every registry and name", "why_tests_cant": "all registries", "anchors": ["src/registry.rs: render, render_to_write"]}
{"id": "C37", "title": "All entry points agree", "statement": "insert then render, once, compile then render_template, and render_to_write with a complete writer give the same result for the same name, source and data.", "quantifier": "every source, data and registry", "why_tests_cant": "all templates", "anchors": ["src/registry.rs: once, render, render_template, render_to_write, insert", "src/template.rs: Template::render"]}
{"id": "C38", "title": "Lint agrees with compile", "statement": "lint returns no error exactly when compile succeeds, and otherwise the first error it returns is the error compile reports (lint goes on after an error, and may panic on the inputs of C40).", "quantifier": "every source", "why_tests_cant": "all sources", "anchors": ["src/registry.rs: lint", "src/parser/mod.rs: Iterator::next"]}
{"id": "C39", "title": "Error snippets are safe to format", "statement": "Formatting the source snippet of an error succeeds exactly when the byte is inside the source, is not on a newline (unless 0) and its line contains only ASCII; otherwise it panics.", "quantifier": "every source, line and byte position", "why_tests_cant": "all positions and texts", "anchors": ["src/error/source.rs: ErrorInfo"]}
{"id": "C40", "title": "Compiling never panics", "statement": "Compiling any source returns a template or a syntax error and never panics.", "quantifier": "every source", "why_tests_cant": "all sources", "anchors": ["src/parser/*.rs", "src/error/source.rs"]}
{"id": "C41", "title": "String literals denote their text", "statement": "A quoted literal without escapes denotes exactly the text between its quotes; escaped quotes and \\n are replaced; nothing is cut off.", "quantifier": "every literal content", "why_tests_cant": "all contents", "anchors": ["src/parser/string.rs: parse, literal, RawLiteral::into_owned"]}
{"id": "C42", "title": "Links split on pipes", "statement": "[[href|label|title]] with no escapes gives exactly the three fields to the link handler; a missing label or title is the empty string.", "quantifier": "every field text", "why_tests_cant": "all contents", "anchors": ["src/parser/link.rs", "src/render/mod.rs: link"]}
{"id": "C43", "title": "Duplicate hash keys: the last wins", "statement": "When a hash key is given more than once in a call the helper sees only the last value, and every other key exactly once.", "quantifier": "every sequence of hash parameters", "why_tests_cant": "all sequences", "anchors": ["src/parser/ast.rs: Call::add_parameter", "src/render/mod.rs: hash"]}
{"id": "C44", "title": "A compiled template covers its whole source", "statement": "When compile succeeds the top-level nodes, in order, cover the source from the first to the last byte: no part of the source is dropped.", "quantifier": "every source", "why_tests_cant": "all sources", "anchors": ["src/parser/mod.rs: advance, parse"]}
{"id": "C45", "title": "Block tags must match", "statement": "When compile succeeds every closed block's end tag names the block it closes; an end tag with a different name is TagNameMismatch and one with no open block is BlockNotOpen.", "quantifier": "every source", "why_tests_cant": "all nestings", "anchors": ["src/parser/mod.rs: advance", "src/parser/block.rs: raw"]}
{"id": "C46", "title": "Destination contract", "statement": "StringOutput receives exactly the concatenation of the writes; an error of the destination aborts the render with an I/O error; every byte handed to a destination is written.", "quantifier": "every sequence of writes and every writer behaviour", "why_tests_cant": "writers may accept any prefix", "anchors": ["src/output.rs: Writer, StringOutput", "src/render/mod.rs: write_str"]}
{"id": "C47", "title": "Local helpers end with their parent", "statement": "A local helper registered during a helper call shadows a registry helper of the same name and is gone when that call returns.", "quantifier": "every helper", "why_tests_cant": "all histories", "anchors": ["src/render/mod.rs: register_local_helper, unregister_local_helper, invoke"]}
{"id": "C48", "title": "Missing-helper handlers", "statement": "helperMissing is invoked exactly when a simple statement resolves to neither a helper nor a variable (or a block to neither); blockHelperMissing exactly when a block's name is a variable and not a helper, with that name and value as property.", "quantifier": "every registry, state and call", "why_tests_cant": "all combinations", "anchors": ["src/render/mod.rs: call, block_helper_missing"]}
{"id": "C49", "title": "evaluate agrees with templates", "statement": "evaluate(path) inside a helper returns the value the same path would have as an argument in the template at that point, and syntax errors come back as errors.", "quantifier": "every path text and state", "why_tests_cant": "all paths and states", "anchors": ["src/render/mod.rs: evaluate", "src/parser/path.rs: from_str"]}
{"id": "C50", "title": "Missing arguments are null and remembered", "statement": "Every argument and hash value is passed in position; a path that does not resolve becomes null and is reported by missing/missing_param with its source text, and a literal null is not.", "quantifier": "every argument list", "why_tests_cant": "argument lists of any length", "anchors": ["src/render/mod.rs: arguments, hash", "src/render/context.rs: missing, get_fallback"]}
{"id": "C51", "title": "Hash parameter order does not matter", "statement": "The hash a helper or partial receives does not depend on the order in which literal and path parameters are written or iterated.", "quantifier": "every permutation of parameters", "why_tests_cant": "HashMap iteration order is random per run", "anchors": ["src/render/mod.rs: hash"]}
{"id": "C52", "title": "Line numbers are right", "statement": "The line recorded where a node starts is the number of newlines before it in the source (plus the configured offset).", "quantifier": "every source", "why_tests_cant": "all sources", "anchors": ["src/parser/mod.rs: advance", "src/parser/block.rs: until"]}
{"id": "C53", "title": "End-to-end meaning of core templates", "statement": "For every well-formed template built from text, comments, escaped tags, links, raw blocks, variables, calls of helpers with literal, path, sub-expression and hash arguments, and blocks with else clauses (no ~ and no partials), printing the template as source, compiling and rendering it with the built-in helpers and any helpers of the application that compute values or render their blocks gives exactly the output, error or panic of a direct reference interpreter.", "quantifier": "every core template of any size and nesting, and every data value", "why_tests_cant": "couples lexer, parser, and renderer on an unbounded language", "anchors": ["src/lexer.rs", "src/parser/mod.rs", "src/render/mod.rs", "src/helper/*.rs"]}
{"id": "C54", "title": "Data cannot inject markup", "statement": "With the default escape, a template that uses only {{x}} writes <, >, quotes and & only from its own text or as entities, whatever the data (the application's own helpers and handlers escape what they write themselves).", "quantifier": "every such template and every data value", "why_tests_cant": "adversarial data", "anchors": ["src/escape.rs", "src/render/mod.rs"]}
{"id": "C55", "title": "Maximal munch", "statement": "At every position each lexer mode yields the longest match among its patterns, the one of highest priority among equally long ones, and a one-character error token exactly when no pattern matches.", "quantifier": "all modes and all source texts", "why_tests_cant": "the set of texts is infinite and each mode has up to 21 competing patterns", "anchors": ["src/lexer.rs: Block, RawComment, RawStatement, Comment, Parameters, DoubleQuoteString, SingleQuoteString, Array, Link"]}
{"id": "C56", "title": "Compiling reads a template as it was written", "statement": "The source text of any well-formed template (texts, comments, escaped tags, links, statements, raw blocks, partials, blocks with else clauses, trim marks, arguments, sub-expressions and hash parameters) compiles without error, and the compiled document has exactly the nodes, arguments, literals, paths and trim marks that were written.", "quantifier": "every well-formed abstract template of any size and nesting, every starting file name and position", "why_tests_cant": "unbounded recursive language; one token rule or parser state wrong anywhere changes some template", "anchors": ["src/lexer.rs", "src/parser/mod.rs: Parser::advance, Parser::parse", "src/parser/call.rs", "src/parser/path.rs", "src/parser/block.rs"]}
{"id": "C57", "title": "The log helper", "statement": "log joins the printed values of its arguments with single spaces and logs each line of the result as one record, at the level named by the level parameter or at info, and returns nothing and writes nothing; a level that is not a string panics.", "quantifier": "every call with at least one argument", "why_tests_cant": "all arguments", "anchors": ["src/helper/log.rs"]}
{"id": "C58", "title": "The json helper prints JSON", "statement": "json returns a JSON text of its argument in the sense of RFC 8259 that denotes the argument, without white space between tokens and on one line, unless the pretty parameter is truthy, then laid out one element per line indented two spaces per level; a JSON text denotes one value only, so json never returns the same for two different arguments.", "quantifier": "every value", "why_tests_cant": "all values", "anchors": ["src/helper/json.rs"]}
{"id": "C59", "title": "What is opened and never ended is an error", "statement": "A comment, escaped tag, link or raw block that is opened anywhere and not ended before the end of the source makes compile fail with the error for that kind of construct.", "quantifier": "every template before it, every nesting of open blocks around it, every text after it without its end", "why_tests_cant": "all templates, nestings and texts", "anchors": ["src/parser/block.rs: until, text_until, raw, raw_comment, raw_statement, comment", "src/parser/link.rs: parse"]}
{"id": "C60", "title": "Directories and files load as named", "statement": "read_dir registers, for each file in the directory whose name ends in the given extension, the template compiled from that file's text under the name of the file without the extension, in the order listed; other entries are ignored, other names keep their templates, and the first entry that cannot be listed, read or compiled ends it with that error, leaving the earlier ones registered. load registers a file under its path, or fails and changes nothing.", "quantifier": "every file system, every directory listing, extension, registry and file name", "why_tests_cant": "all listings, file contents and failure points", "anchors": ["src/registry.rs: read_dir, load, add, read"]}
{"id": "C61", "title": "What a template with ~ and partials writes", "statement": "Compiling the source of any well-formed template and rendering it with the built-in helpers, helpers of the application and any registered well-formed templates returns exactly what a small reference interpreter on the written syntax says: every statement, block, else clause, raw block, link, partial, block partial and @partial-block, with ~ removing the white space it stands next to; and when rendering fails, the error and what had been written are those of the interpreter.", "quantifier": "every well-formed template, library of partials, data, strictness and escape function", "why_tests_cant": "all templates, partials nested in any way, and data", "anchors": ["src/registry.rs: once, insert, render_to_write", "src/render/mod.rs: render_node, statement, block, partial, template, write_str", "src/parser/", "src/trim.rs"]}
{"id": "C62", "title": "~ only removes white space", "statement": "Two templates that differ only in their ~s (and whose partials do) write the same characters other than white space, and fail with the same error if they fail; what is written with ~ is what is written without it less some white space.", "quantifier": "every well-formed template, library of partials and data, every escape function that leaves white space alone, every helper of the application that does not look at the text of a raw block", "why_tests_cant": "all templates, placements of ~ and data", "anchors": ["src/render/mod.rs: write_str, template, render_node", "src/trim.rs: trim, TrimHint, TrimState", "src/parser/iter.rs: event"]}
{"id": "C63", "title": "Only two calls can panic while rendering", "statement": "Rendering a well-formed template with well-formed partials and helpers that do not panic by themselves never panics, whatever the data: it returns text or an error, unless a template calls lookup with a field that is not a string literal or log with a level that is not a string literal.", "quantifier": "every well-formed template and library of partials without such a call, every data, strictness, escape function and accepting destination", "why_tests_cant": "all templates and data", "anchors": ["src/render/mod.rs", "src/helper/lookup.rs: LookupHelper::call", "src/helper/log.rs: LogHelper::call"]}
{"id": "C64", "title": "Strict mode only adds errors", "statement": "If a rendering succeeds in strict mode it gives the same text without strict mode; if it fails, what it had written is a prefix of what is written without strict mode.", "quantifier": "every well-formed template, library of partials and data; and every compiled template with helpers that give up at the first error", "why_tests_cant": "all templates and data", "anchors": ["src/render/mod.rs: call, block, resolve", "src/registry.rs: set_strict"]}
{"id": "C65", "title": "Templates written one after the other render one after the other", "statement": "Rendering the concatenation of two templates writes what the first writes followed by what the second writes with the same data, and fails as the first of them that does, if the first, and the partials it and they may include, have neither ~ nor partials with a content, and the second does not begin with a ~. (With a block partial in the first this is false: its content stays available as @partial-block.)", "quantifier": "every two well-formed templates whose concatenation is one, library of partials and data", "why_tests_cant": "all pairs of templates and data", "anchors": ["src/render/mod.rs: template, render_node, partial", "src/parser/mod.rs"]}
{"id": "C66", "title": "Data that is not mentioned does not matter", "statement": "If neither the template nor its partials have a path that leads to the member k of the data or to the data as a whole, then two data objects that differ only in k give the same result (text, error or panic).", "quantifier": "every name k, every two objects equal but for k; every compiled template and registry whose paths do not lead there (C66_compiled), in particular every well-formed template and library without such a path", "why_tests_cant": "a non-interference property: pairs of runs over all data", "anchors": ["src/render/mod.rs: lookup, resolve, find_parts, this", "src/json.rs: find_parts, find_field"]}
{"id": "C67", "title": "Templates that are not included do not matter", "statement": "Two registries with the same settings that agree on the templates a template includes (directly or through others) give the same result for it, whatever else is registered.", "quantifier": "every well-formed template, every two registries of well-formed templates that agree on the included names, every data", "why_tests_cant": "pairs of runs over all registries", "anchors": ["src/registry.rs: get_template, insert, once", "src/render/mod.rs: partial, get_partial_name"]}
{"id": "C68", "title": "Lint reports every faulty block tag", "statement": "In a source that is well formed except for end tags with no open block, blocks ended by another name and opening tags of blocks without a plain name ({{#a.b}}, {{#(f x)}}), lint reports each such fault exactly once, in order and with the right kind, an end tag with no open block at the position where it begins, and nothing else. It does not stop at the first. It can panic instead only if some fault is not an end tag with no open block, or lies on a line with characters of more than one byte.", "quantifier": "every number of faults, with every well-formed template before, between and after them", "why_tests_cant": "recovery depends on the parser state after each of unboundedly many errors", "anchors": ["src/registry.rs: lint", "src/parser/mod.rs: Parser::errors, ParseState, end_tag", "src/parser/block.rs: open, close", "src/error/source.rs: ErrorInfo"]}
{"id": "C69", "title": "Rendering does not panic in the library itself", "statement": "Once templates have been compiled, rendering them never panics, whatever the data and the writer do, provided that the end tags of blocks and the character before an `else` that ends a clause are ASCII, that no link with an empty label or title is given to a link handler, and that no helper panics by itself. Of the built-in helpers only `lookup` and `log` may panic; if a render panics, a helper that may panic was called. Non-ASCII texts, names and data are harmless elsewhere.", "quantifier": "every registry of compiled templates, every data value, every writer, every helper as an arbitrary interaction with the renderer, every depth of nesting", "why_tests_cant": "the library is documented to be robust with untrusted input: a panic needs one bad slice or unwrap in unboundedly many combinations of templates, data and helpers", "anchors": ["src/render/mod.rs: render_node, call, block, render_partial, lookup, template, inverse, buffer", "src/parser/ast.rs: as_str, trim, trim_close, is_escaped", "src/helper/*.rs"]}
{"id": "C70", "title": "File name and line offset are only labels", "statement": "Compiling the same source under another file name and with a line offset d higher has the same outcome: the same tree except that every line number recorded in it is d higher, the same error with the same source line, column and notes in its message under the other name and a line number d higher, or a panic in both cases. Linting under another name reports the same problems.", "quantifier": "every source, every two file names, every line offset and every d, every byte offset (the same in both)", "why_tests_cant": "a relation between two runs of the parser over all sources", "anchors": ["src/parser/mod.rs: ParserOptions, ParseState, Parser::parse", "src/error/source.rs: ErrorInfo", "src/registry.rs: lint, compile"]}
{"id": "C71", "title": "A compiled template prints as its source", "statement": "A compiled template written as a string is exactly the text it was compiled from. Every node in it other than a block prints as a stretch of the source that begins where the node begins; a block prints as its content only, without its tags and its else clauses. Printing any part of a compiled template never panics.", "quantifier": "every source that compiles, every node at every depth", "why_tests_cant": "printing slices the source at recorded offsets: all sources and all nodes", "anchors": ["src/parser/ast.rs: Display for Node, Block, Call, Text, TextBlock, Link, Document", "src/template.rs: Display for Template"]}
{"id": "C72", "title": "An error is equal to itself", "statement": "Errors can be compared: an error is equal to itself, comparison does not depend on the order, and errors that compare equal are the same error (I/O errors: of the same kind).", "quantifier": "every error the registry can return", "why_tests_cant": "the Eq contract ranges over all error values", "anchors": ["src/error/mod.rs: PartialEq for Error, IoError", "src/error/render.rs: PartialEq for RenderError"]}
{"id": "C73", "title": "What an error says", "statement": "The full text of a syntax error is one line beginning with 'Syntax error, ' that says what is wrong, followed by the source snippet; two syntax errors have the same full text only if they are the same error, and the same first line only if the same thing is wrong. An error raised inside a block or in a text rendered by a helper says the same however many helpers handed it on, and a syntax error found while rendering says what the compiler says. The text contains the name of the partial, variable, helper or template it is about. Apart from I/O errors and messages written by helpers, an error text begins with 'Syntax error, ' exactly if it is about a syntax error. Errors that compare equal have the same text; two errors of the library about names without quotes have the same text only if they are the same (syntax errors: of the same kind). An arity error gives the numbers wanted.", "quantifier": "every error value, at every depth of wrapping, with every name in it", "why_tests_cant": "ranges over all error values, which nest without bound", "anchors": ["src/error/syntax.rs: SyntaxError, Debug for SyntaxError", "src/error/helper.rs: HelperError", "src/error/render.rs: RenderError, Debug for RenderError", "src/error/mod.rs: Error, Debug for Error, IoError"]}
{"id": "C74", "title": "A helper's checks on its call", "statement": "arity(lo..hi) accepts exactly the calls with lo to hi arguments, both included; assert_block accepts exactly the calls with content and assert_statement exactly those without. try_get, try_param, try_value and try_evaluate return the value, null standing for an absent one, exactly if it has the given type. Each check that fails says which helper (or path) and what was wanted. lookup finds the member or element of that name and is_truthy is what {{#if}} goes by.", "quantifier": "every call, value, type and path", "why_tests_cant": "all argument counts and all values", "anchors": ["src/render/context.rs: arity, assert_block, assert_statement, try_get, try_param, try_value, lookup, is_truthy", "src/render/mod.rs: try_evaluate"]}
{"id": "C75", "title": "A partial called by a computed name", "statement": "{{> (q b) a}} does what {{> w a}} does, wherever it stands in a template and whatever follows, if evaluating (q b) writes nothing and yields a value that prints as w; in particular {{> (k) a}} with a member k of the data that is the string w. Without `>`, {{(q b) a}} prints what {{q b}} prints: the arguments a are never looked at.", "quantifier": "every template, partials, registry settings and data; every sub-expression, name and arguments", "why_tests_cant": "ranges over all templates, values and names", "anchors": ["src/render/mod.rs: call, render_partial, get_partial_name", "src/parser/call.rs: sub_expr, call target"]}
{"id": "C76", "title": "The scopes a helper makes", "statement": "A helper that sets a local variable n on the innermost scope gets that value back as @n (and from Scope::local with the @), and every path that does not begin with @n has the value it had before. After pushing a scope with a base value, `this` is that value and a plain name is the local variable or member of it, if there is one, and otherwise what it was. Popping a scope just pushed gives it back and leaves everything as it was.", "quantifier": "every scope stack, name, value, path and continuation of the helper", "why_tests_cant": "all names, values and scope stacks", "anchors": ["src/render/scope.rs: Scope", "src/render/mod.rs: push_scope, pop_scope, scope_mut, evaluate"]}
{"id": "C77", "title": "The application's own helpers", "statement": "Registering a helper makes {{name args}} write what the helper writes and, escaped, the value it computes from the values of the arguments, or fail with its error; templates whose text and partials do not mention the name render as before; and removing the helper again makes every template render as before it was registered.", "quantifier": "every registry, helper that writes texts, computes values or renders its block, arguments, template and data", "why_tests_cant": "all helpers, argument expressions and templates", "anchors": ["src/registry.rs: helpers_mut", "src/helper/mod.rs: Helper, HelperRegistry::insert, remove", "src/render/mod.rs: invoke, call"]}
{"id": "C78", "title": "Layout inside tags does not matter", "statement": "Two templates that differ only in the layout inside their tags (white space between arguments and around names, the texts of comments, double quotes, single quotes or brackets around strings, the backslash before a link) render to the same text or error, also when the partials they include differ so. The only exception is white space between `{{~` and the name in a statement, where the code then ignores the `~`.", "quantifier": "every pair of well-formed templates and libraries that are equal up to layout, every data, strictness and escape function", "why_tests_cant": "all templates and all ways to lay them out", "anchors": ["src/lexer.rs", "src/parser/call.rs", "src/parser/iter.rs", "src/registry.rs: once"]}
{"id": "C79", "title": "A part of a template can be moved into a partial", "statement": "If X is registered as p, then writing {{> p}} or the text of X is the same: replacing every {{> p}} by the text of X, in a template and in all partials, at any depth, changes neither the output nor the error. (X has no ~ and no partials and, outside its own each and with blocks, no path that begins with this, ./, ../ or a local variable, because a partial without arguments has an empty scope of its own; the templates have no ~.)", "quantifier": "every such X, name, template, library of partials, data, strictness and escape function", "why_tests_cant": "all templates, all places where the partial is called, all data", "anchors": ["src/render/mod.rs: render_partial, lookup", "src/registry.rs: once"]}
{"id": "C80", "title": "Handlers act where they apply and nowhere else", "statement": "A handler for unknown names is called with the arguments when {{name args}} names neither a helper nor a variable, a handler for links with the three texts of every link, a handler for blocks with the name and value when the name of a block is a variable but no helper. Elsewhere they have no effect: a template without (unescaped) links renders the same with and without a link handler, one whose blocks all call helpers with and without a block handler, and what renders successfully in strict mode renders the same with a handler for unknown names.", "quantifier": "every registry, handler, library of partials, template and data", "why_tests_cant": "all templates, handlers and data", "anchors": ["src/render/mod.rs: call, block, render_node", "src/helper/mod.rs: HandlerRegistry", "src/registry.rs: handlers_mut"]}
{"id": "C81", "title": "The escape function acts on what two braces print, and only on that", "statement": "With the escape function that does nothing it makes no difference whether statements are written with two or three braces; and where all statements that print have three braces (and the application's helpers do not ask for escaping themselves) the escape function makes no difference.", "quantifier": "every template, library of partials, data, strictness, helpers and handlers of the application, escape function", "why_tests_cant": "all templates and escape functions", "anchors": ["src/escape.rs: html, noop", "src/registry.rs: set_escape", "src/render/mod.rs: statement, write_str"]}
{"id": "C82", "title": "A new registry and its settings", "statement": "A new registry has no templates, is not strict, escapes for HTML and has no handlers: {{w}} writes the escaped value the data has for w and nothing if it has none, a link is written as its text, an unknown block writes nothing. set_strict and set_escape change exactly that: after set_strict(true) a missing variable is an error naming it and the template, after set_escape(f) two braces write what f makes of the value.", "quantifier": "every name, data value, template name, escape function", "why_tests_cant": "all names, data and escape functions", "anchors": ["src/registry.rs: Registry::new, set_strict, set_escape, strict, escape"]}
{"id": "C83", "title": "Comments do not matter", "statement": "Two templates without ~ that are the same but for their comments (anywhere, in the partials too) render the same; with ~ a comment between a text and the tag keeps the white space of the text.", "quantifier": "every template and library of partials without ~, data, settings, helpers", "why_tests_cant": "all templates and places of comments", "anchors": ["src/render/mod.rs: render_node, template", "src/parser/iter.rs: event", "src/parser/block.rs: raw_comment, comment"]}
{"id": "C84", "title": "Only plain names can name blocks and partials", "statement": "The opening tag of a block whose name is a path of several parts, this, a local variable or a computed name is a syntax error (BlockName), wherever it is; so in a compiled template every block, however deep, has a plain name unless it is a raw block. A raw block with another name, or with a computed one, is a render error naming what was written, and so is a partial called by such a path (except @partial-block), with or without content: nothing is written or evaluated, whatever helpers, handlers, templates and data there are.", "quantifier": "every source, every place in every template, every path, registry, data and render state", "why_tests_cant": "all sources, paths and nesting depths", "anchors": ["src/parser/mod.rs: advance", "src/parser/ast.rs: Block::name, Path::is_simple", "src/parser/block.rs: raw", "src/render/mod.rs: block, get_partial_name, render_partial"]}
{"id": "C85", "title": "Conditionals can be rewritten", "statement": "In a template without ~, {{else p a}} may be written as {{else}}{{#if (p a)}}..{{/if}} (and {{else if x}} as {{else}}{{#if x}}..{{/if}}), {{#unless x}} as {{#if (not x)}}, {{#unless x}}b{{else}}c{{/unless}} as {{#if x}}c{{else}}b{{/if}}, {{#if x}}{{#if y}}b{{/if}}{{/if}} as {{#if (and x y)}}b{{/if}}, an empty {{else}} may be left out, and so may the first of two plain {{else}}s and any {{else unless x}}: in any combination, at any depth and in the partials too, the result is the same text or the same error (but for the helpers it is reported through), unless one of the two reaches the recursion limit of a helper.", "quantifier": "every pair of templates related by the rules, libraries, data, settings, helpers of the application (that do not replace if, unless, not, and), handlers", "why_tests_cant": "all templates, nestings and combinations of rewritings", "anchors": ["src/helper/if.rs: If", "src/helper/unless.rs: Unless", "src/helper/logical.rs: And, Not", "src/render/mod.rs: inverse, block, call"]}
{"id": "C86", "title": "The name of a template is only a label", "statement": "The same source rendered under two names, or a template registered under two names, writes the same text, also when it fails; it fails with the same error, except that the error of a variable missing in strict mode tells the name.", "quantifier": "every text (C86_text) and every registered template (C86_compiled), every registry whose helpers do not ask for the name, all data, destinations and recursion depths, and every two names; for well-formed templates also that the render ends", "why_tests_cant": "Two runs are compared for all templates and data.", "anchors": ["src/registry.rs: Registry::once, Registry::render_to_write", "src/render/mod.rs: Render::new, Render::lookup, RenderError::VariableNotFound"]}
{"id": "C87", "title": "A partial can be tried on its own", "statement": "{{> p x}} renders exactly (text, error or panic) what the template p renders on its own with the value of x as its data, {{> p k=x ...}} what p renders with the object of those arguments as its data, and {{#with x}}T{{/with}} what T renders with that value as its data (an error being reported through the helper), provided that p (or T), and the partials it may include, use no ../, no @root, no name that is found in the outer data but not in the value, p does not include itself, and there are not more than 32 blocks with inside one another. Without that restriction on names it fails: a partial sees the members of the outer data that its value lacks.", "quantifier": "all templates and partials of the surface language (of any nesting, with ~, blocks, block partials and custom helpers), all data, all argument paths and hash arguments, all registries", "why_tests_cant": "It relates the runs of one template in two different contexts, for every template and every data value", "anchors": ["src/render/mod.rs: Render::render_partial, Render::lookup, Render::arguments", "src/render/scope.rs: Scope", "src/helper/with.rs: With", "src/registry.rs: Registry::once"]}
{"id": "C88", "title": "A syntax error is shown where it is", "statement": "If a template does not compile, the message shows a complete line of the source, with a pointer below a byte of the tag that was being read when the error was noticed (or below the last byte of the source, if a comment, an escaped tag or a raw block is not ended), and the number of that line (counting from the line offset).", "quantifier": "all sources, all parser options whose byte offset is a place in the source, all syntax errors", "why_tests_cant": "Each of the more than forty kinds of syntax error arises at several places of the parser, from any state reached before it, and the position is a mutable variable that every parsing function updates on the way", "anchors": ["src/parser/mod.rs: Parser, ParseState, err", "src/parser/call.rs", "src/parser/path.rs", "src/parser/string.rs", "src/parser/link.rs", "src/parser/block.rs", "src/error/source.rs: ErrorInfo"]}
{"id": "C89", "title": "A list renders as its items do, one after the other", "statement": "{{#each x}}T{{/each}} writes what T on its own writes with the first item of x (or the value of the first key) as its data, then with the second, and so on: all these texts or, if T fails on an item, the error of the first such item, reported through the helper. Provided that T, and the partials it may include, use no ../, no @root, none of @first, @last, @index, @key, no name that is found in the outer data but not in the item, no ~, and no partial with a content; and that there are not more than 32 each inside one another.", "quantifier": "all templates and partials of the surface language within that restriction, all data, all paths x, lists of any length, all registries", "why_tests_cant": "It relates one run to as many others as the list has items, for every template, list and data", "anchors": ["src/helper/each.rs: Each", "src/render/mod.rs: Render::template, Render::lookup", "src/render/scope.rs: Scope", "src/registry.rs: Registry::once"]}
{"id": "C90", "title": "A conditional renders as the branch it takes", "statement": "{{#if c}}A{{else if ...}}B...{{else}}Z{{/if}} (or the same with unless) renders exactly what the branch it takes renders on its own with the same data: the same text, the same error (reported through the helper) or a panic. The branch is A when c is truthy (for unless: falsy), otherwise the first else clause whose condition is truthy, otherwise Z, otherwise nothing; the conditions after it are not evaluated and the other branches have no effect, errors included. Inside the branch there may be anything (~, partials, block partials, more conditionals), except that more than 32 blocks of that name inside one another fail.", "quantifier": "all conditions (paths, literals, nested calls), all branches of the surface language, any number of else clauses, all data, libraries of partials, registries, custom helpers (if and unless not replaced)", "why_tests_cant": "It relates the runs of two templates for every template, data and registry", "anchors": ["src/helper/if.rs: If", "src/helper/unless.rs: Unless", "src/render/mod.rs: Render::inverse, Render::template, Render::block", "src/registry.rs: Registry::once"]}
{"id": "C91", "title": "A content that is not asked for does not matter", "statement": "{{#> p a}}...{{/p}} renders exactly as {{> p a}} (text, error or panic), wherever it stands and whatever the content is, provided that neither the templates outside such contents nor the partials they include, however deep, include @partial-block or a partial by a computed name, or use ~. So a content is rendered only where a template asks for it, and under that condition templates with block partials written one after the other render one after the other (C65).", "quantifier": "all templates and partials of the surface language within that restriction (contents and else clauses of block partials unrestricted), all data, all registries", "why_tests_cant": "It relates the runs of two templates for every content, every way of nesting and every library of partials", "anchors": ["src/render/mod.rs: Render::render_partial, Render::get_partial_name, Render::block, PARTIAL_BLOCK", "src/registry.rs: Registry::once"]}
{"id": "C92", "title": "Only what the registry holds matters", "statement": "If two registries give the same template and the same helper for every name, and have the same handlers, escape function and strict setting, then render, render_to_write, once and render_template give the same result (text, error and writes) on both, for every template, data and destination; and making the same change to both keeps them the same. In particular the order in which templates, helpers, handlers and settings are set up, and anything inserted and removed on the way, have no influence on any render.", "quantifier": "all pairs of registries with the same contents, all templates however compiled, data, destinations and recursion depths, all histories of insert/add/remove, all permutations of a set-up of pairwise different things", "why_tests_cant": "A test compares two set-up orders of a few templates; this is about every history, every order and every template rendered afterwards.", "anchors": ["src/registry.rs: Registry::insert", "src/registry.rs: Registry::remove", "src/registry.rs: Registry::render", "src/helper/mod.rs: HelperRegistry::insert", "src/render/mod.rs: Render::render_partial", "src/render/mod.rs: Render::invoke"]}
{"id": "C93", "title": "Helpers and templates whose names do not occur do not matter", "statement": "If the text w occurs nowhere in the sources of the registered templates (nor in what their helpers compile), then registering, replacing or removing a helper named w, whatever it does, changes no render: same text, error and writes for all data and destinations. The same holds for a template named w, provided no template computes the names of partials. In general, two registries that agree on the names a template uses render it alike.", "quantifier": "all sources that compile (not only the surface language), all helpers written against the public Render interface that bring in no names of their own, all data, destinations and recursion depths", "why_tests_cant": "It is about every helper that could be added and every template that does not mention it; a collision (a helper shadowing a variable, a partial found by accident) shows only for particular names.", "anchors": ["src/render/mod.rs: Render::has_helper, Render::invoke, Render::call, Render::block, Render::render_partial", "src/helper/mod.rs: HelperRegistry::get", "src/registry.rs: Registry::helpers_mut, Registry::insert, Registry::render"]}
{"id": "C94", "title": "What is written does not depend on the destination", "statement": "As long as its writes succeed, however many bytes it says it took, a destination sees the same texts in the same order, and render_to_write returns the same result, as when rendering to a string. Once a write fails the render fails, and the texts handed over until then (the failed one included) are what the text returned by render begins with. So of two destinations, what one was handed begins what the other was handed.", "quantifier": "all compiled templates (not only the surface language), registries, data, recursion depths and destinations (any function from the writes so far to the next answer); all helpers written against the public Render interface that give up at the first error and ignore byte counts, as the built-in ones do", "why_tests_cant": "It is about every destination and every point at which it may fail, in every construct that writes.", "anchors": ["src/render/mod.rs: Render::write_str, Render::write, Render::write_escaped, Render::template, Render::buffer, Render::once", "src/output.rs: Output, StringOutput, Writer", "src/registry.rs: Registry::render, Registry::render_to_write"]}
{"id": "C95", "title": "A render depends on the data only through the paths of the template", "statement": "If every path that occurs in a template and in the registered partials finds the same in two data values, in every stack of scopes, then the two render the same: the same text or the same error, and the same writes to every destination. The built-in helpers see nothing of the data but their arguments.", "quantifier": "all compiled templates (not only the surface language), registries, destinations, recursion depths and pairs of data values; all helpers of the application that evaluate only such paths and do not ask for the whole data", "why_tests_cant": "Two runs are compared for all templates and all pairs of data that a set of paths cannot tell apart.", "anchors": ["src/render/mod.rs: Render::lookup, Render::call, Render::arguments, Render::hash, Render::evaluate, Render::data", "src/helper/mod.rs: every built-in helper", "src/registry.rs: Registry::render, Registry::render_to_write, Registry::once"]}
{"id": "C96", "title": "An argument from the data can be written as a literal", "statement": "If some paths @root.a.b have, in the data, the values of literals (null if they are missing), then writing these literals in the place of the paths wherever they are arguments (of helpers, partials, blocks, conditions and sub-expressions, positional or by key, at any depth), in the template and in all partials, changes neither the output nor the error.", "quantifier": "all templates and partials of the surface syntax, all sets of such paths and literals, all data that has these values, all registries with built-in helpers and helpers of the application", "why_tests_cant": "There are unboundedly many templates, nestings, scopes and values; tests compare a few calls with literals and a few with variables, never the two with each other at every place an argument can stand.", "anchors": ["src/render/mod.rs: Render::lookup, Render::arguments, Render::hash, Render::call", "src/parser/call.rs: value", "src/parser/path.rs: parse"]}
