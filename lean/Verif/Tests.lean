import Verif.Model.Registry

/-! Tests, not proofs: the repository's own test-suite (`/repo/tests/*.rs`) replayed on
the model with the kernel, to check that the model was read off the code correctly. -/

namespace Bracket.Tests

/-- A concrete `Host`; the float functions are not exercised here. -/
local instance : Host := ⟨fun _ => none, fun _ => [], fun s => s.length, .posInt 0, true⟩

/-- Text produced by `once`. -/
def text (r : Reg) (src : Str) (data : Value) : Option Str :=
  match r.once 40 c!"test" src data with
  | .ok s => some s
  | _ => none

/-- `once` returned an error. -/
def isErr (r : Reg) (src : Str) (data : Value) : Bool :=
  match r.once 40 c!"test" src data with
  | .err _ => true
  | _ => false

/-- The syntax error of `parse`. -/
def synErr (src : Str) : Option SyntaxErr :=
  match parseTemplate c!"test" src with
  | .err (.syntax e) => some e
  | _ => none

/-- The syntax error of the given kind at line 0 and the given byte. -/
def errAt (src : Str) (k : SynKind) (byte : Nat) : Option SyntaxErr :=
  (errorInfo src c!"test" 0 byte []).map fun i => ⟨k, i⟩

/-- The lines of the first node. -/
def firstLines (src : Str) : Option Span :=
  match parseTemplate c!"test" src with
  | .ok t =>
      match t.node.children with
      | .text x :: _ => some x.line
      | .comment x :: _ => some x.text.line
      | .rawComment x :: _ => some x.text.line
      | .statement x :: _ => some x.line
      | .block x :: _ => some x.line
      | _ => none
  | _ => none

/-- tests/raw_block.rs -/
def rawHelper : HelperFn := fun ctx _ =>
  match ctx.text with
  | some t => .write t fun _ => .ret none
  | none => .ret none
/-- tests/evaluate.rs -/
def evalHelper : HelperFn := fun _ _ =>
  .evaluate c!"@root.foo" fun r => match r with | .ok v => .ret v | .error e => .fail e
/-- tests/helper.rs -/
def fooHelper : HelperFn := fun _ _ => .ret (some (.str c!"bar"))
/-- tests/helper.rs -/
def fooBlockHelper : HelperFn := fun _ t =>
  .registerLocal c!"foo" fooHelper <|
    match t with
    | some n => .tmpl n (.unregisterLocal c!"foo" (.ret none))
    | none => .unregisterLocal c!"foo" (.ret none)
/-- tests/helper.rs -/
def propHelper : HelperFn := fun ctx _ =>
  match ctx.property with
  | some (_, .str s) => .write s fun _ => .ret none
  | _ => .panic
/-- tests/link.rs -/
def linkHelper : HelperFn := fun ctx _ =>
  ctx.withArity 3 3 <|
    match ctx.get 0, ctx.get 1, ctx.get 2 with
    | some (.str href), some (.str l), some (.str t) =>
        let label := if l.isEmpty then href else l
        let title := if t.isEmpty then label else t
        .peek fun v =>
          .write (c!"<a href=\"" ++ v.escape href ++ c!"\" title=\"" ++ v.escape title ++ c!"\">"
            ++ v.escape label ++ c!"</a>") fun _ => .ret none
    | _, _, _ => .panic


/-! tests/conditional.rs -/

example : text (Reg.new) c!"{{#if true}}{{foo}}{{/if}}" (.obj [(c!"foo", (.str c!"bar"))]) = some c!"bar" := by decide +kernel
example : text (Reg.new) c!"{{#if false}}WRONG{{else}}{{foo}}{{/if}}" (.obj [(c!"foo", (.str c!"bar"))]) = some c!"bar" := by decide +kernel
example : text (Reg.new) c!"{{#if false}}WRONG{{else if true}}{{foo}}{{/if}}" (.obj [(c!"foo", (.str c!"bar"))]) = some c!"bar" := by decide +kernel
example : text (Reg.new) c!"{{#if false}}WRONG{{else if false}}WRONG{{else}}{{foo}}{{/if}}" (.obj [(c!"foo", (.str c!"bar"))]) = some c!"bar" := by decide +kernel
example : text (Reg.new) c!"{{#unless false}}{{foo}}{{/unless}}" (.obj [(c!"foo", (.str c!"bar"))]) = some c!"bar" := by decide +kernel
example : text (Reg.new) c!"{{#unless true}}WRONG{{else}}{{foo}}{{/unless}}" (.obj [(c!"foo", (.str c!"bar"))]) = some c!"bar" := by decide +kernel
example : text (Reg.new) c!"{{#if (and true true)}}{{foo}}{{/if}}" (.obj [(c!"foo", (.str c!"bar"))]) = some c!"bar" := by decide +kernel
example : text (Reg.new) c!"{{#if (or false true)}}{{foo}}{{/if}}" (.obj [(c!"foo", (.str c!"bar"))]) = some c!"bar" := by decide +kernel
example : text (Reg.new) c!"{{#if (not false)}}{{foo}}{{/if}}" (.obj [(c!"foo", (.str c!"bar"))]) = some c!"bar" := by decide +kernel

/-! tests/each.rs -/

example : text (Reg.new) c!"{{#each foo}}{{this}}{{/each}}" (.obj [(c!"foo", (.arr [(.str c!"b"), (.str c!"a"), (.str c!"r")]))]) = some c!"bar" := by decide +kernel
example : text (Reg.new) c!"{{#each foo}}{{@index}}{{/each}}" (.obj [(c!"foo", (.arr [(.str c!"b"), (.str c!"a"), (.str c!"r")]))]) = some c!"012" := by decide +kernel
example : text (Reg.new) c!"{{#each foo}}{{this}}{{/each}}" (.obj [(c!"foo", (.obj [(c!"bar", (.str c!"baz")), (c!"buz", (.str c!"qux"))]))]) = some c!"bazqux" := by decide +kernel
example : text (Reg.new) c!"{{#each foo}}{{@key}}{{/each}}" (.obj [(c!"foo", (.obj [(c!"bar", (.str c!"baz")), (c!"buz", (.str c!"qux"))]))]) = some c!"barbuz" := by decide +kernel

/-! tests/trim.rs -/

example : text (Reg.new) c!"\n{{~foo~}}\n" (.obj [(c!"foo", (.str c!"bar"))]) = some c!"bar" := by decide +kernel
example : text (Reg.new) c!"\n{{~#if true}}{{foo}}{{/if}}" (.obj [(c!"foo", (.str c!"bar"))]) = some c!"bar" := by decide +kernel
example : text (Reg.new) c!"{{#if true~}}\n{{foo}}{{/if}}" (.obj [(c!"foo", (.str c!"bar"))]) = some c!"bar" := by decide +kernel
example : text (Reg.new) c!"{{#if true}}{{foo}}\n{{~/if}}" (.obj [(c!"foo", (.str c!"bar"))]) = some c!"bar" := by decide +kernel
example : text (Reg.new) c!"{{#if true}}{{foo}}{{/if~}}\n\n" (.obj [(c!"foo", (.str c!"bar"))]) = some c!"bar" := by decide +kernel
example : text (Reg.new) c!"{{#if false}}WRONG{{else~}}\n{{foo}}{{/if~}}\n\n" (.obj [(c!"foo", (.str c!"bar"))]) = some c!"bar" := by decide +kernel
example : text (Reg.new) c!"{{#if true ~}}\n{{foo}}\n{{~else~}}\n{{foo}}\n{{~/if~}}\n" (.obj [(c!"foo", (.str c!"bar"))]) = some c!"bar" := by decide +kernel
example : text (Reg.new) c!"{{#if false ~}}\n{{foo}}\n{{~else~}}\n{{foo}}\n{{~/if~}}\n" (.obj [(c!"foo", (.str c!"bar"))]) = some c!"bar" := by decide +kernel
example : text (Reg.new) c!"\n{{{{~raw}}}}bar{{{{/raw~}}}}\n" (.obj []) = some c!"bar" := by decide +kernel
example : text (Reg.new) c!"{{{{raw~}}}}\nbar\n{{{{~/raw}}}}" (.obj []) = some c!"bar" := by decide +kernel

/-! tests/vars.rs -/

example : text (Reg.new) c!"{{foo}}" (.obj [(c!"foo", (.str c!"<bar>"))]) = some c!"&lt;bar&gt;" := by decide +kernel
example : text (Reg.new) c!"{{{foo}}}" (.obj [(c!"foo", (.str c!"<bar>"))]) = some c!"<bar>" := by decide +kernel
example : text (Reg.new) c!"\\{{foo}}" (.obj [(c!"foo", (.str c!"bar"))]) = some c!"{{foo}}" := by decide +kernel
example : text (Reg.new) c!"{{this}}" (.str c!"bar") = some c!"bar" := by decide +kernel
example : text (Reg.new) c!"{{./}}" (.str c!"bar") = some c!"bar" := by decide +kernel
example : text (Reg.new) c!"{{this.foo}}" (.obj [(c!"foo", (.str c!"bar"))]) = some c!"bar" := by decide +kernel
example : text (Reg.new) c!"{{@root.foo}}" (.obj [(c!"foo", (.str c!"bar"))]) = some c!"bar" := by decide +kernel
example : text (Reg.new) c!"{{foo.bar.baz}}" (.obj [(c!"foo", (.obj [(c!"bar", (.obj [(c!"baz", (.str c!"qux"))]))]))]) = some c!"qux" := by decide +kernel
example : text (Reg.new) c!"{{#with baz}}{{../foo}}{{/with}}" (.obj [(c!"baz", (.str c!"qux")), (c!"foo", (.str c!"bar"))]) = some c!"bar" := by decide +kernel
example : text (Reg.new) c!"{{#each this}}{{@index}}{{/each}}" (.arr [(.str c!"foo")]) = some c!"0" := by decide +kernel
example : text (Reg.new) c!"{{#each this}}{{@key}}{{/each}}" (.obj [(c!"foo", (.str c!"bar"))]) = some c!"foo" := by decide +kernel
example : text (Reg.new) c!"{{#each this}}{{@last}}{{/each}}" (.arr [(.str c!"foo")]) = some c!"true" := by decide +kernel
example : text (Reg.new) c!"{{#each this}}{{@last}}{{/each}}" (.obj [(c!"foo", (.str c!"bar"))]) = some c!"true" := by decide +kernel
example : text (Reg.new) c!"{{#each this}}{{@first}}{{/each}}" (.arr [(.str c!"foo")]) = some c!"true" := by decide +kernel
example : text (Reg.new) c!"{{#each this}}{{@first}}{{/each}}" (.obj [(c!"foo", (.str c!"bar"))]) = some c!"true" := by decide +kernel
example : text (Reg.new) c!"{{this.[1]}}" (.arr [(.str c!"foo"), (.str c!"bar"), (.str c!"baz")]) = some c!"bar" := by decide +kernel
example : text (Reg.new) c!"{{#each list}}{{title}}{{/each}}" (.obj [(c!"list", (.arr [(.obj [(c!"title", (.str c!"bar"))])])), (c!"title", (.str c!"foo"))]) = some c!"bar" := by decide +kernel
example : text (Reg.new) c!"{{#with item}}{{#each list}}{{title}}{{/each}}{{/with}}" (.obj [(c!"item", (.obj [(c!"title", (.str c!"bar"))])), (c!"list", (.arr [(.num (.posInt 1))])), (c!"title", (.str c!"foo"))]) = some c!"bar" := by decide +kernel
example : text (Reg.new) c!"{{#with item}}{{this.title}}{{/with}}" (.obj [(c!"item", (.obj [(c!"title", (.str c!"bar"))])), (c!"title", (.str c!"foo"))]) = some c!"bar" := by decide +kernel
example : text (Reg.new) c!"{{#with item}}{{this.title}}{{/with}}" (.obj [(c!"item", (.obj [])), (c!"title", (.str c!"foo"))]) = some c!"" := by decide +kernel

/-! tests/partial.rs -/

example : text ((Reg.insert Reg.new c!"foo" c!"{{bar}}").2) c!"{{ > foo }}" (.obj [(c!"bar", (.str c!"qux"))]) = some c!"qux" := by decide +kernel
example : text ((Reg.insert Reg.new c!"bar" c!"{{baz}}").2) c!"{{ > (foo) }}" (.obj [(c!"baz", (.str c!"qux")), (c!"foo", (.str c!"bar"))]) = some c!"qux" := by decide +kernel
example : text ((Reg.insert Reg.new c!"foo" c!"{{> @partial-block}}").2) c!"{{#>foo}}{{bar}}{{/foo}}" (.obj [(c!"bar", (.str c!"qux"))]) = some c!"qux" := by decide +kernel
example : text ((Reg.insert Reg.new c!"foo" c!"{{bar}}").2) c!"{{ > foo ctx }}" (.obj [(c!"bar", (.str c!"qux")), (c!"ctx", (.obj [(c!"bar", (.str c!"baz"))]))]) = some c!"baz" := by decide +kernel
example : text ((Reg.insert Reg.new c!"foo" c!"{{bar}}").2) c!"{{ > foo ctx bar=\"xyz\"}}" (.obj [(c!"bar", (.str c!"qux")), (c!"ctx", (.obj [(c!"bar", (.str c!"baz"))]))]) = some c!"xyz" := by decide +kernel

/-! tests/raw_block.rs -/

example : text (Reg.new.insertHelper c!"raw-helper" rawHelper) c!"{{{{raw-helper}}}}foo{{{{/raw-helper}}}}" (.obj []) = some c!"foo" := by decide +kernel
example : text (Reg.new) c!"{{{{raw}}}}foo {{bar}} baz{{{{/raw}}}}" (.obj []) = some c!"foo {{bar}} baz" := by decide +kernel
example : text (Reg.new) c!"some{{{{raw}}}}\nfoo\n{{bar}}\nbaz{{{{/raw}}}}\ntext" (.obj []) = some c!"some\nfoo\n{{bar}}\nbaz\ntext" := by decide +kernel

/-! tests/evaluate.rs -/

example : text (Reg.new.insertHelper c!"eval" evalHelper) c!"{{eval}}" (.obj [(c!"foo", (.str c!"bar"))]) = some c!"bar" := by decide +kernel

/-! tests/helper.rs -/

example : text (Reg.new.insertHelper c!"foo" fooHelper) c!"{{foo}}" (.obj [(c!"foo", (.str c!"qux"))]) = some c!"bar" := by decide +kernel
example : text (Reg.new.insertHelper c!"foo" fooHelper) c!"{{this.foo}}" (.obj [(c!"foo", (.str c!"qux"))]) = some c!"qux" := by decide +kernel
example : text (Reg.new.insertHelper c!"foo" fooHelper) c!"{{./foo}}" (.obj [(c!"foo", (.str c!"qux"))]) = some c!"qux" := by decide +kernel
example : text (Reg.new.insertHelper c!"block" fooBlockHelper) c!"{{#block}}{{foo}}{{/block}}" (.obj [(c!"foo", (.str c!"qux"))]) = some c!"bar" := by decide +kernel
example : text ({ Reg.new with helperMissing := some fun _ _ => .write c!"bar" fun _ => .ret none }) c!"{{baz}}" (.obj []) = some c!"bar" := by decide +kernel
example : text ({ Reg.new with blockHelperMissing := some propHelper }) c!"{{#block}}{{foo}}{{/block}}" (.obj [(c!"block", (.str c!"bar"))]) = some c!"bar" := by decide +kernel

/-! tests/link.rs -/

example : text (Reg.new) c!"\\[[/some/target]]" (.obj []) = some c!"[[/some/target]]" := by decide +kernel
example : text (Reg.new) c!"[[/some/target]]" (.obj []) = some c!"[[/some/target]]" := by decide +kernel
example : text ({ Reg.new with link := some linkHelper }) c!"[[SomeTarget|Label & Info|Title Label]]" (.obj []) = some c!"<a href=\"SomeTarget\" title=\"Title Label\">Label &amp; Info</a>" := by decide +kernel
example : text ({ Reg.new with link := some linkHelper }) c!"[[Some\\|Target|Label & Info]]" (.obj []) = some c!"<a href=\"Some|Target\" title=\"Label &amp; Info\">Label &amp; Info</a>" := by decide +kernel
example : text ({ Reg.new with link := some linkHelper }) c!"[[Some\\|Target|Label\\|Info]]" (.obj []) = some c!"<a href=\"Some|Target\" title=\"Label|Info\">Label|Info</a>" := by decide +kernel
example : text ({ Reg.new with link := some linkHelper }) c!"[[Some\\]Target|Label & Info]]" (.obj []) = some c!"<a href=\"Some]Target\" title=\"Label &amp; Info\">Label &amp; Info</a>" := by decide +kernel
example : text ({ Reg.new with link := some linkHelper }) c!"[[Some\\]Target|Label\\]Info]]" (.obj []) = some c!"<a href=\"Some]Target\" title=\"Label]Info\">Label]Info</a>" := by decide +kernel
example : text ({ Reg.new with link := some linkHelper }) c!"[[Some\\nTarget|Label & Info]]" (.obj []) = some c!"<a href=\"Some\nTarget\" title=\"Label &amp; Info\">Label &amp; Info</a>" := by decide +kernel
example : text ({ Reg.new with link := some linkHelper }) c!"[[Some\\nTarget|Label\\nInfo]]" (.obj []) = some c!"<a href=\"Some\nTarget\" title=\"Label\nInfo\">Label\nInfo</a>" := by decide +kernel

/-! tests/render.rs -/

example : text (Reg.new) c!"Some text" (.obj []) = some c!"Some text" := by decide +kernel
example : text (Reg.new) c!"<!-- foo -->" (.obj []) = some c!"<!-- foo -->" := by decide +kernel
example : text (Reg.new) c!"{{! simple comment }}" (.obj []) = some c!"" := by decide +kernel
example : text (Reg.new) c!"{{!-- foo {{bar}} baz --}}" (.obj []) = some c!"" := by decide +kernel
example : text (Reg.new) c!"\\{{expr}}" (.obj []) = some c!"{{expr}}" := by decide +kernel
example : text (Reg.new) c!"{{foo}}" (.obj [(c!"foo", (.str c!"bar"))]) = some c!"bar" := by decide +kernel

/-! tests/lookup.rs -/

example : text (Reg.new) c!"{{lookup map 'foo'}}" (.obj [(c!"map", (.obj [(c!"foo", (.str c!"bar"))]))]) = some c!"bar" := by decide +kernel
example : text (Reg.new) c!"{{lookup list '1'}}" (.obj [(c!"list", (.arr [(.str c!"foo"), (.str c!"bar"), (.str c!"qux")]))]) = some c!"bar" := by decide +kernel
example : text (Reg.new) c!"{{lookup foo.bar.qux 'baz'}}" (.obj [(c!"foo", (.obj [(c!"bar", (.obj [(c!"qux", (.obj [(c!"baz", (.str c!"bar"))]))]))]))]) = some c!"bar" := by decide +kernel

/-! tests/defaults.rs -/

example : text (Reg.new) c!"foo{{qux}}bar" (.obj []) = some c!"foobar" := by decide +kernel
example : text (Reg.new) c!"foo{{#qux}}baz{{/qux}}bar" (.obj []) = some c!"foobar" := by decide +kernel
example : isErr (Reg.new.setStrict true) c!"foo{{qux}}bar" (.obj []) = true := by decide +kernel
example : isErr (Reg.new.setStrict true) c!"foo{{#qux}}baz{{/qux}}bar" (.obj []) = true := by decide +kernel

/-! tests/comparison.rs -/

example : text (Reg.new) c!"{{#if (eq 1 1)}}bar{{/if}}" (.obj []) = some c!"bar" := by decide +kernel
example : text (Reg.new) c!"{{#if (ne 1 2)}}bar{{/if}}" (.obj []) = some c!"bar" := by decide +kernel
example : text (Reg.new) c!"{{#if (gt 2 1)}}bar{{/if}}" (.obj []) = some c!"bar" := by decide +kernel
example : text (Reg.new) c!"{{#if (gte 2 2)}}bar{{/if}}" (.obj []) = some c!"bar" := by decide +kernel
example : text (Reg.new) c!"{{#if (lt 1 2)}}bar{{/if}}" (.obj []) = some c!"bar" := by decide +kernel
example : text (Reg.new) c!"{{#if (lte 2 2)}}bar{{/if}}" (.obj []) = some c!"bar" := by decide +kernel

/-! tests/syntax_error.rs: error kind and position -/

example : synErr c!"{{}}" = errAt c!"{{}}" .expectedIdentifier 2 := by decide +kernel
example : synErr c!"{{# }}" = errAt c!"{{# }}" .expectedIdentifier 4 := by decide +kernel
example : synErr c!"{{# foo.bar}}" = errAt c!"{{# foo.bar}}" .blockName 4 := by decide +kernel
example : synErr c!"{{ foo.\"bar\nqux\" }}" = errAt c!"{{ foo.\"bar\nqux\" }}" .literalNewline 10 := by decide +kernel
example : synErr c!"{{ foo.'bar\nqux' }}" = errAt c!"{{ foo.'bar\nqux' }}" .literalNewline 10 := by decide +kernel
example : synErr c!"{{ foo.[bar\nqux] }}" = errAt c!"{{ foo.[bar\nqux] }}" .literalNewline 10 := by decide +kernel
example : synErr c!"{{#> (foo}}" = errAt c!"{{#> (foo}}" .subExpressionNotTerminated 9 := by decide +kernel
example : synErr c!"[[SomeLink|Page" = errAt c!"[[SomeLink|Page" .linkNotTerminated 14 := by decide +kernel
example : synErr c!"{{{{raw" = errAt c!"{{{{raw" .rawBlockOpenNotTerminated 4 := by decide +kernel
example : synErr c!"{{{{raw}}}}foo{{{{/raw" = errAt c!"{{{{raw}}}}foo{{{{/raw" .rawBlockNotTerminated 19 := by decide +kernel
example : synErr c!"{{{{raw}}}}foo" = errAt c!"{{{{raw}}}}foo" .rawBlockNotTerminated 13 := by decide +kernel

/-! tests/lines.rs -/

example : firstLines c!"This is some text\nthat spans multiple lines\nso we can check the line range." = some ⟨0, 3⟩ := by decide +kernel
example : firstLines c!"{{!\nThis is a comment that spans multiple lines.\n}}" = some ⟨0, 3⟩ := by decide +kernel
example : firstLines c!"{{!--\nThis is a raw comment that spans multiple lines.\n--}}" = some ⟨0, 3⟩ := by decide +kernel
example : firstLines c!"{{\nfoo.bar.qux\n}}" = some ⟨0, 3⟩ := by decide +kernel
example : firstLines c!"{{\nfoo\n\"message\"\ntrue\n}}" = some ⟨0, 5⟩ := by decide +kernel
example : firstLines c!"{{{{raw}}}}\nThis is some text in a raw block.\n{{{{/raw}}}}" = some ⟨0, 3⟩ := by decide +kernel
example : firstLines c!"{{#block}}\nThis is some text in a block statement.\nIf can have other {{foo}} statements.\n\n{{/block}}" = some ⟨0, 5⟩ := by decide +kernel

/-! tests/lexer.rs -/

example : collect c!"foo bar baz" true = [⟨.block .text, ⟨0, 11⟩⟩] := by decide +kernel
example : collect c!"{{\"foo\"}}" true = [⟨.block .startStatement, ⟨0, 2⟩⟩, ⟨.params .doubleQuoteString, ⟨2, 3⟩⟩, ⟨.dquote .text, ⟨3, 6⟩⟩, ⟨.dquote .fin, ⟨6, 7⟩⟩, ⟨.params .fin, ⟨7, 9⟩⟩] := by decide +kernel
example : collect c!"{{'foo'}}" true = [⟨.block .startStatement, ⟨0, 2⟩⟩, ⟨.params .singleQuoteString, ⟨2, 3⟩⟩, ⟨.squote .text, ⟨3, 6⟩⟩, ⟨.squote .fin, ⟨6, 7⟩⟩, ⟨.params .fin, ⟨7, 9⟩⟩] := by decide +kernel
example : collect c!"{{this.[1]}}" true = [⟨.block .startStatement, ⟨0, 2⟩⟩, ⟨.params .explicitThisKeyword, ⟨2, 6⟩⟩, ⟨.params .pathDelimiter, ⟨6, 7⟩⟩, ⟨.params .startArray, ⟨7, 8⟩⟩, ⟨.array .text, ⟨8, 9⟩⟩, ⟨.array .fin, ⟨9, 10⟩⟩, ⟨.params .fin, ⟨10, 12⟩⟩] := by decide +kernel
example : collect c!"foo {{bar}} baz" true = [⟨.block .text, ⟨0, 4⟩⟩, ⟨.block .startStatement, ⟨4, 6⟩⟩, ⟨.params .identifier, ⟨6, 9⟩⟩, ⟨.params .fin, ⟨9, 11⟩⟩, ⟨.block .text, ⟨11, 15⟩⟩] := by decide +kernel
example : collect c!"{{{{ raw }}}}foo {{bar}} baz{{{{ / raw }}}}" true = [⟨.block .startRawBlock, ⟨0, 5⟩⟩, ⟨.params .identifier, ⟨5, 8⟩⟩, ⟨.params .whiteSpace, ⟨8, 9⟩⟩, ⟨.params .fin, ⟨9, 13⟩⟩, ⟨.block .text, ⟨13, 17⟩⟩, ⟨.block .startStatement, ⟨17, 19⟩⟩, ⟨.params .identifier, ⟨19, 22⟩⟩, ⟨.params .fin, ⟨22, 24⟩⟩, ⟨.block .text, ⟨24, 28⟩⟩, ⟨.block .endRawBlock, ⟨28, 34⟩⟩, ⟨.params .whiteSpace, ⟨34, 35⟩⟩, ⟨.params .identifier, ⟨35, 38⟩⟩, ⟨.params .whiteSpace, ⟨38, 39⟩⟩, ⟨.params .fin, ⟨39, 43⟩⟩] := by decide +kernel
example : collect c!"{{{{raw}}}}\nfoo\n{{bar}}\nbaz\n{{{{/raw}}}}\n" true = [⟨.block .startRawBlock, ⟨0, 4⟩⟩, ⟨.params .identifier, ⟨4, 7⟩⟩, ⟨.params .fin, ⟨7, 11⟩⟩, ⟨.block .text, ⟨11, 16⟩⟩, ⟨.block .startStatement, ⟨16, 18⟩⟩, ⟨.params .identifier, ⟨18, 21⟩⟩, ⟨.params .fin, ⟨21, 23⟩⟩, ⟨.block .text, ⟨23, 28⟩⟩, ⟨.block .endRawBlock, ⟨28, 33⟩⟩, ⟨.params .identifier, ⟨33, 36⟩⟩, ⟨.params .fin, ⟨36, 40⟩⟩, ⟨.block .text, ⟨40, 41⟩⟩] := by decide +kernel
example : collect c!"{{!-- foo {{bar}} baz --}}" true = [⟨.block .startRawComment, ⟨0, 5⟩⟩, ⟨.block .text, ⟨5, 22⟩⟩, ⟨.rawComment .fin, ⟨22, 26⟩⟩] := by decide +kernel
example : collect c!"{{!--\nfoo\n{{bar}}\nbaz\n--}}" true = [⟨.block .startRawComment, ⟨0, 5⟩⟩, ⟨.block .text, ⟨5, 22⟩⟩, ⟨.rawComment .fin, ⟨22, 26⟩⟩] := by decide +kernel
example : collect c!"{{! foo }}" true = [⟨.block .startComment, ⟨0, 3⟩⟩, ⟨.block .text, ⟨3, 8⟩⟩, ⟨.comment .fin, ⟨8, 10⟩⟩] := by decide +kernel
example : collect c!"{{!\nfoo\nbar\nbaz\n}}" true = [⟨.block .startComment, ⟨0, 3⟩⟩, ⟨.block .text, ⟨3, 16⟩⟩, ⟨.comment .fin, ⟨16, 18⟩⟩] := by decide +kernel
example : collect c!"\\{{foo}}" true = [⟨.block .startRawStatement, ⟨0, 3⟩⟩, ⟨.block .text, ⟨3, 6⟩⟩, ⟨.rawStatement .fin, ⟨6, 8⟩⟩] := by decide +kernel
example : collect c!"\\{{> foo}}" true = [⟨.block .startRawStatement, ⟨0, 3⟩⟩, ⟨.block .text, ⟨3, 8⟩⟩, ⟨.rawStatement .fin, ⟨8, 10⟩⟩] := by decide +kernel
example : collect c!"{{foo}}" true = [⟨.block .startStatement, ⟨0, 2⟩⟩, ⟨.params .identifier, ⟨2, 5⟩⟩, ⟨.params .fin, ⟨5, 7⟩⟩] := by decide +kernel
example : collect c!"{{> foo}}" true = [⟨.block .startStatement, ⟨0, 2⟩⟩, ⟨.params .partialSign, ⟨2, 3⟩⟩, ⟨.params .whiteSpace, ⟨3, 4⟩⟩, ⟨.params .identifier, ⟨4, 7⟩⟩, ⟨.params .fin, ⟨7, 9⟩⟩] := by decide +kernel
example : collect c!"{{foo.bar.baz}}" true = [⟨.block .startStatement, ⟨0, 2⟩⟩, ⟨.params .identifier, ⟨2, 5⟩⟩, ⟨.params .pathDelimiter, ⟨5, 6⟩⟩, ⟨.params .identifier, ⟨6, 9⟩⟩, ⟨.params .pathDelimiter, ⟨9, 10⟩⟩, ⟨.params .identifier, ⟨10, 13⟩⟩, ⟨.params .fin, ⟨13, 15⟩⟩] := by decide +kernel
example : collect c!"{{../../foo}}" true = [⟨.block .startStatement, ⟨0, 2⟩⟩, ⟨.params .parentRef, ⟨2, 5⟩⟩, ⟨.params .parentRef, ⟨5, 8⟩⟩, ⟨.params .identifier, ⟨8, 11⟩⟩, ⟨.params .fin, ⟨11, 13⟩⟩] := by decide +kernel
example : collect c!"{{@root/foo}}" true = [⟨.block .startStatement, ⟨0, 2⟩⟩, ⟨.params .localIdentifier, ⟨2, 7⟩⟩, ⟨.params .pathDelimiter, ⟨7, 8⟩⟩, ⟨.params .identifier, ⟨8, 11⟩⟩, ⟨.params .fin, ⟨11, 13⟩⟩] := by decide +kernel
example : collect c!"{{foo (lookup a b)}}" true = [⟨.block .startStatement, ⟨0, 2⟩⟩, ⟨.params .identifier, ⟨2, 5⟩⟩, ⟨.params .whiteSpace, ⟨5, 6⟩⟩, ⟨.params .startSubExpression, ⟨6, 7⟩⟩, ⟨.params .identifier, ⟨7, 13⟩⟩, ⟨.params .whiteSpace, ⟨13, 14⟩⟩, ⟨.params .identifier, ⟨14, 15⟩⟩, ⟨.params .whiteSpace, ⟨15, 16⟩⟩, ⟨.params .identifier, ⟨16, 17⟩⟩, ⟨.params .endSubExpression, ⟨17, 18⟩⟩, ⟨.params .fin, ⟨18, 20⟩⟩] := by decide +kernel
example : collect c!"{{#foo}}bar {{baz}} qux{{/foo}}" true = [⟨.block .startBlockScope, ⟨0, 3⟩⟩, ⟨.params .identifier, ⟨3, 6⟩⟩, ⟨.params .fin, ⟨6, 8⟩⟩, ⟨.block .text, ⟨8, 12⟩⟩, ⟨.block .startStatement, ⟨12, 14⟩⟩, ⟨.params .identifier, ⟨14, 17⟩⟩, ⟨.params .fin, ⟨17, 19⟩⟩, ⟨.block .text, ⟨19, 23⟩⟩, ⟨.block .endBlockScope, ⟨23, 26⟩⟩, ⟨.params .identifier, ⟨26, 29⟩⟩, ⟨.params .fin, ⟨29, 31⟩⟩] := by decide +kernel
example : collect c!"{{#>foo}}{{@partial-block}}{{/foo}}" true = [⟨.block .startBlockScope, ⟨0, 3⟩⟩, ⟨.params .partialSign, ⟨3, 4⟩⟩, ⟨.params .identifier, ⟨4, 7⟩⟩, ⟨.params .fin, ⟨7, 9⟩⟩, ⟨.block .startStatement, ⟨9, 11⟩⟩, ⟨.params .localIdentifier, ⟨11, 25⟩⟩, ⟨.params .fin, ⟨25, 27⟩⟩, ⟨.block .endBlockScope, ⟨27, 30⟩⟩, ⟨.params .identifier, ⟨30, 33⟩⟩, ⟨.params .fin, ⟨33, 35⟩⟩] := by decide +kernel
example : collect c!"[[/foo/bar|label]]" true = [⟨.block .startLink, ⟨0, 2⟩⟩, ⟨.link .text, ⟨2, 10⟩⟩, ⟨.link .pipe, ⟨10, 11⟩⟩, ⟨.link .text, ⟨11, 16⟩⟩, ⟨.link .fin, ⟨16, 18⟩⟩] := by decide +kernel

/-- The source text of each top-level node. -/
def slices (src : Str) : Option (List (Option Str)) :=
  match parseTemplate c!"test" src with
  | .ok t => some (t.node.children.map Node.asStr)
  | _ => none
/-- The text of the first statement's target. -/
def target (src : Str) : Option Str :=
  match parseTemplate c!"test" src with
  | .ok t => match t.node.children with
      | .statement c :: _ => c.target.asStr
      | _ => none
  | _ => none
/-- The trim hint of the first node. -/
def trims (src : Str) : Option (Option TrimHint) :=
  match parseTemplate c!"test" src with
  | .ok t => t.node.children.head?.map Node.trim
  | _ => none
/-- The span of the first literal argument. -/
def argSpan (src : Str) : Option Span :=
  match parseTemplate c!"test" src with
  | .ok t => match t.node.children with
      | .statement c :: _ => match c.args with
          | .json _ _ sp _ :: _ => some sp
          | _ => none
      | _ => none
  | _ => none


/-! tests/slice.rs, tests/parser.rs -/

example : slices c!"{{foo}}" = some [some c!"{{foo}}"] := by decide +kernel
example : slices c!"{{{foo}}}" = some [some c!"{{{foo}}}"] := by decide +kernel
example : slices c!"{{~foo~}}" = some [some c!"{{~foo~}}"] := by decide +kernel
example : slices c!"{{#if true}}{{foo}}{{/if}}" = some [some c!"{{#if true}}{{foo}}{{/if}}"] := by decide +kernel
example : slices c!"{{{{raw}}}}{{foo}}{{{{/raw}}}}" = some [some c!"{{{{raw}}}}{{foo}}{{{{/raw}}}}"] := by decide +kernel
example : slices c!"{{!foo}}" = some [some c!"{{!foo}}"] := by decide +kernel
example : slices c!"{{!-- foo --}}" = some [some c!"{{!-- foo --}}"] := by decide +kernel
example : slices c!"bar {{foo}} qux" = some [some c!"bar ", some c!"{{foo}}", some c!" qux"] := by decide +kernel
example : target c!"{{foo}}" = some c!"foo" := by decide +kernel
example : target c!"{{foo.bar.qux}}" = some c!"foo.bar.qux" := by decide +kernel
example : target c!"{{@root.foo}}" = some c!"@root.foo" := by decide +kernel
example : target c!"{{../../../foo/bar.txt}}" = some c!"../../../foo/bar.txt" := by decide +kernel
example : target c!"{{include /foo/bar.txt}}" = some c!"include" := by decide +kernel
example : trims c!"{{foo}}" = some (some ⟨false, false⟩) := by decide +kernel
example : trims c!"{{~foo~}}" = some (some ⟨true, true⟩) := by decide +kernel
example : trims c!"{{~#foo~}}bar{{~/foo~}}" = some (some ⟨true, true⟩) := by decide +kernel
example : trims c!"{{{{~raw~}}}}foo{{{{~/raw~}}}}" = some (some ⟨true, true⟩) := by decide +kernel
example : argSpan c!"{{foo \"bar\\nbaz\"}}" = some ⟨6, 16⟩ := by decide +kernel
example : argSpan c!"{{foo -10}}" = some ⟨6, 9⟩ := by decide +kernel
example : argSpan c!"{{foo true}}" = some ⟨6, 10⟩ := by decide +kernel

end Bracket.Tests
