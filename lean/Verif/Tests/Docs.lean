import Verif.Tests.Repo
/-!
# The examples in the documentation, run on the model

The examples in the comments of `/repo/src` that say what they print, and those of the documentation of the crate. The documentation
writes the indentation of some outputs differently; where it differs otherwise this is said. These are checks of the model, not claims
about all inputs.
-/
namespace KissXml.Tests
open KissXml

/-- one attribute -/
def oneAttr (k v : Str) : SMap := SMap.empty.insert k v

/-- `for e in iterator { f(e) }` over mutable references -/
def forMut (it : Element → R (MutIter Element Element)) (f : Element → R Element) (e : Element) : R Element := do
  let m ← it e
  let l ← m.items.mapM f
  pure (m.write l)

/-- `new_with_attributes`, dom.rs:507-519 -/
example : okAnd (ElementF.newWithAttributes c%"b" (oneAttr c%"style" c%"color: blue")) (fun e => e.toString == c%"<b style=\"color: blue\"/>") = true := by
  decide +kernel

/-- `new_with_attributes_and_text`, dom.rs:528-545 -/
example : okAnd (ElementF.newWithAttributesAndText c%"b" (oneAttr c%"style" c%"color: blue") c%"goose")
    (fun e => e.toString == c%"<b style=\"color: blue\">goose</b>") = true := by decide +kernel

/-- `new_with_attributes_and_children`, dom.rs:549-572 -/
example : (okAnd (ElementF.newWithText c%"name" c%"Billy Bob") fun n =>
    okAnd (ElementF.newWithAttributesAndChildren c%"contact" (oneAttr c%"id" c%"123") [.element n]) fun e =>
      e.toString == c%"<contact id=\"123\">\n  <name>Billy Bob</name>\n</contact>") = true := by decide +kernel

/-- `new_with_children`, dom.rs:577-598 -/
example : (okAnd (ElementF.newWithText c%"name" c%"Billy Bob") fun n =>
    okAnd (ElementF.newWithChildren c%"contact" [.element n]) fun e =>
      e.toString == c%"<contact>\n  <name>Billy Bob</name>\n</contact>") = true := by decide +kernel

/-- the document of the examples dom.rs:655-793 -/
def images : Str := c%"<?xml version=\"1.0\" encoding=\"UTF-8\"?>\n\t<root xmlns:img=\"internal://ns/a\" xmlns:dim=\"internal://ns/b\">\n\t\t<width>200</width>\n\t\t<height>150</height>\n\t\t<depth>50</depth>\n\t\t<img:width>200</img:width>\n\t\t<img:height>150</img:height>\n\t\t<dim:width>200</dim:width>\n\t</root>"

/-- what the loops of these examples print -/
def namesTexts (l : List Element) : List (Str × Str) := l.map fun e => (e.name, e.textOf)

/-- `elements_by_namespace` and `elements_by_namespace_prefix`, dom.rs:655-685, 725-757 -/
example : (okAnd (parseStr images) fun d =>
    namesTexts (d.root.elementsByNamespace (some c%"internal://ns/a")) == [(c%"width", c%"200"), (c%"height", c%"150")] &&
    namesTexts (d.root.elementsByNamespacePrefix (some c%"img")) == [(c%"width", c%"200"), (c%"height", c%"150")]) = true := by decide +kernel

/-- `elements_by_namespace_mut`, dom.rs:688-724 -/
example : (okAnd (parseStr images) fun d =>
    okAnd (edits d [forMut (·.elementsByNamespaceMut (some c%"internal://ns/a")) (·.setText c%"0")]) fun d =>
      namesTexts (d.root.elementsByNamespace (some c%"internal://ns/a")) == [(c%"width", c%"0"), (c%"height", c%"0")]) = true := by decide +kernel

/-- `elements_by_namespace_prefix_mut`, dom.rs:758-793 -/
example : (okAnd (parseStr images) fun d =>
    okAnd (edits d [forMut (·.elementsByNamespacePrefixMut (some c%"img")) (·.setText c%"-1")]) fun d =>
      namesTexts (d.root.elementsByNamespacePrefix (some c%"img")) == [(c%"width", c%"-1"), (c%"height", c%"-1")]) = true := by decide +kernel

/-- `first_element_by_name`, dom.rs:886-905.  The comment says `1st <p>: Hello there!`; the element is printed with its tags. -/
example : (okAnd (parseStr c%"<body>\n\t\t<p>Hello there!</p>\n\t\t<p>Good-bye!</p>\n\t</body>") fun d =>
    okAnd (d.root.firstElementByName c%"p") fun e => e.toString == c%"<p>Hello there!</p>" && e.textOf == c%"Hello there!") = true := by decide +kernel

/-- `first_element_by_name_mut`, dom.rs:916-934 -/
example : (okAnd (parseStr c%"<body>\n\t\t<p>Hello there!</p>\n\t</body>") fun d =>
    okAnd (edits d [at_ (·.setText c%"Good bye!") [c%"p"]]) fun d => d.root.toString == c%"<body>\n  <p>Good bye!</p>\n</body>") = true := by decide +kernel

/-- the library of the examples dom.rs:1050-1112 -/
def library : Str := c%"<root>\n\t\t\t<books>\n\t\t\t\t<asian>\n\t\t\t\t\t<book genre=\"fantasy\" count=\"1\">Journey to the West</book>\n\t\t\t\t</asian>\n\t\t\t\t<european>\n\t\t\t\t\t<book genre=\"fantasy\" count=\"1\">The Lord of the Rings</book>\n\t\t\t\t\t<book genre=\"sci-fi\" count=\"1\">The Hitchhiker's Guide to the Galaxy</book>\n\t\t\t\t</european>\n\t\t\t</books>\n\t\t</root>"

/-- `search_elements` and `search_elements_by_name`, dom.rs:1048-1115 -/
example : (okAnd (parseStr library) fun d =>
    (d.root.searchElements (fun e => e.getAttr c%"genre" == some c%"fantasy")).map (·.textOf) == [c%"Journey to the West", c%"The Lord of the Rings"] &&
    (d.root.searchElementsByName c%"book").map (·.textOf) ==
      [c%"Journey to the West", c%"The Lord of the Rings", c%"The Hitchhiker's Guide to the Galaxy"]) = true := by decide +kernel

/-- `append`, dom.rs:1141-1161.  With a line end after the last tag. -/
example : (okAnd (ElementF.newFromName c%"album") fun a =>
    okAnd (edits (Document.new a) [fun e => do e.append (.element (← ElementF.newWithText c%"song" c%"I Believe I Can Fly"))]) fun d =>
      d.toString == c%"<?xml version=\"1.0\" encoding=\"UTF-8\"?>\n<album>\n  <song>I Believe I Can Fly</song>\n</album>\n") = true := by decide +kernel

/-- `append_all`, dom.rs:1222-1248 -/
example : (okAnd (ElementF.newFromName c%"album") fun a =>
    okAnd (edits (Document.new a) [fun e => do e.appendAll [.element (← ElementF.newWithText c%"song" c%"I Believe I Can Fly"),
      .element (← ElementF.newWithText c%"song" c%"My Heart Will Go On"), .comment (← commentNew c%"album list incomplete")]]) fun d =>
      d.toString == c%"<?xml version=\"1.0\" encoding=\"UTF-8\"?>\n<album>\n  <song>I Believe I Can Fly</song>\n  <song>My Heart Will Go On</song>\n  <!--album list incomplete-->\n</album>\n") = true := by
  decide +kernel

/-- `remove_all`, dom.rs:1297-1327 -/
example : (okAnd (parseStr c%"\n\t\t<list>\n\t\t\t<task>Go to work</task>\n\t\t\t<work>Web development</work>\n\t\t\t<task>Do homework</task>\n\t\t\t<task>Party!</task>\n\t\t</list>\n\t\t") fun d =>
    okAnd (edits d [fun e => do pure (← e.removeAll fun n => contains n.textOf c%"work").1]) fun d =>
      d.toString == c%"<list>\n  <work>Web development</work>\n  <task>Party!</task>\n</list>\n") = true := by decide +kernel

/-- "Parse XML and then search the DOM for specific elements", lib.rs:50-84 -/
example : (okAnd (parseStr c%"<?xml version=\"1.0\" encoding=\"UTF-8\"?>\n<config>\n\t<name>My Settings</name>\n\t<sound>\n\t\t<property name=\"volume\" value=\"11\" />\n\t\t<property name=\"mixer\" value=\"standard\" />\n\t</sound>\n</config>\n") fun d =>
    okAnd (d.root.firstElementByName c%"sound") (fun s => (s.elementsByName c%"property").map (fun p => (p.getAttr c%"name", p.getAttr c%"value")) ==
      [(some c%"volume", some c%"11"), (some c%"mixer", some c%"standard")]) &&
    d.root.childElements.map (·.name) == [c%"name", c%"sound"] &&
    (d.root.searchElements fun _ => true).map (·.name) == [c%"name", c%"sound", c%"property", c%"property"]) = true := by decide +kernel

/-- "Create and edit DOM from scratch", lib.rs:93-112: only the first person is left -/
example : (okAnd (ElementF.newFromName c%"politicians") fun a => okAnd (edits (Document.new a) [
    fun e => do e.insert 0 (.element (← ElementF.newWithText c%"person" c%"John Adams")),
    fun e => do e.append (.element (← ElementF.newWithText c%"person" c%"Hillary Clinton")),
    fun e => do e.append (.element (← ElementF.newWithText c%"person" c%"Jimmy John")),
    fun e => do e.append (.element (← ElementF.newWithText c%"person" c%"Nanny No-Name")),
    fun e => do pure (← e.removeElement 3).2,
    fun e => do pure (← e.removeElements fun e => e.textOf == c%"Jimmy John").1]) fun d =>
      d.root.childElements.map (·.textOf) == [c%"John Adams", c%"Hillary Clinton"] &&
      okAnd (d.root.firstElementByName c%"person") (·.textOf == c%"John Adams")) = true := by decide +kernel

/-- "Get and modify text and comments", lib.rs:119-168.  The comment has two spaces after `</a>` where one is written. -/
example : (okAnd (parseStr c%"<html>\n\t<!-- this is a comment -->\n\t<body>\n\t\tContent goes here\n\t</body>\n</html>") fun d => okAnd (edits d [
    fun e => do pure (← e.removeAll Node.isComment).1,
    at_ (fun e => do pure (← e.removeAll fun _ => true).1) [c%"body"],
    at_ (fun e => do e.appendAll [
      .element (← ElementF.newWithText c%"h1" c%"Chapter 1"), .comment (← commentNew c%"Note: there is only one chapter"),
      .element (← ElementF.newWithChildren c%"p" [.text c%"Once upon a time, there was a little ",
        .element (← ElementF.newWithAttributesAndText c%"a" (oneAttr c%"href" c%"https://en.wikipedia.org/wiki/Gnome") c%"gnome"),
        .text c%" who lived in a walnut tree..."])]) [c%"body"]]) fun d =>
      d.toString == c%"<html>\n  <body>\n    <h1>Chapter 1</h1>\n    <!--Note: there is only one chapter-->\n    <p>Once upon a time, there was a little <a href=\"https://en.wikipedia.org/wiki/Gnome\">gnome</a> who lived in a walnut tree...</p>\n  </body>\n</html>\n") = true := by
  decide +kernel

/-- the tree of lib.rs:175-212 -/
def tree : R Element := do
  let t ← ElementF.newWithChildren c%"tree" [.element (← ElementF.newWithText c%"speak" c%"bark!")]
  t.append (.element (← ElementF.newFromName c%"branch"))

/-- "Indentation and Whitespace Handling", lib.rs:175-194 -/
example : okAnd tree (fun t => t.toString == c%"<tree>\n  <speak>bark!</speak>\n  <branch/>\n</tree>") = true := by decide +kernel

/-- the same with a text, lib.rs:196-213 -/
example : (okAnd tree fun t => okAnd (t.append (.text c%"I'm a tree!")) fun t =>
    t.toString == c%"<tree><speak>bark!</speak><branch/>I'm a tree!</tree>") = true := by decide +kernel

/-- the text when this is parsed, lib.rs:215-222 -/
example : (okAnd (parseStr c%"<tree>\n  <speak>bark!</speak>\n  <branch/>\n  I'm a tree!\n</tree>") fun d =>
    d.root.children.length == 3 && childAt d.root 2 (fun n => n.isText && n.textOf == c%"\n  I'm a tree!\n")) = true := by decide +kernel

end KissXml.Tests
