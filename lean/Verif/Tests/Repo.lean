import Verif.Model.Mut
import Verif.Model.Serialize
import Verif.Model.Parse
/-!
# The tests of the project, run on the model

Every test of `/repo/tests` that asserts something is repeated here on the model with the same inputs and the same expected values
(the strings are copied by a script). Kernel-checked by evaluation. These are checks of the model, not claims about all inputs.
-/
namespace KissXml.Tests
open KissXml

/-- `r.unwrap()` succeeds and the value passes -/
def okAnd {α : Type} (r : R α) (f : α → Bool) : Bool := match r with | .ok a => f a | _ => false
/-- `is_err()` -/
def isErr {α : Type} : R α → Bool | .err _ => true | _ => false
/-- `is_ok()` -/
def isOk {α : Type} : R α → Bool | .ok _ => true | _ => false
/-- ends without panic -/
def calm {α : Type} : R α → Bool | .ok _ => true | .err _ => true | _ => false
/-- `e.first_element_by_name_mut(n1)?.first_element_by_name_mut(n2)? … .f(..)?` -/
def at_ (f : Element → R Element) : List Str → Element → R Element
  | [], e => f e
  | n :: l, e => do
    let (c, w) ← e.firstElementByNameMut n
    let c' ← at_ f l c
    pure (w c')
/-- a sequence of edits of the root -/
def edits (d : Document) (l : List (Element → R Element)) : R Document := do
  let (r, w) := d.rootElementMut
  let r' ← l.foldlM (fun e f => f e) r
  pure (w r')
/-- `n.text().contains(..)` -/
def childAt (e : Element) (i : Nat) (f : Node → Bool) : Bool := match e.children[i]? with | some n => f n | none => false

/-- `sample_xml_1`, api_tests.rs -/
def sample1 : Str := c%"<?xml version=\"1.0\" encoding=\"UTF-8\"?>\n<!DOCTYPE note [\n<!ENTITY ignore \"kiss-xml ignores DOCTYPE stuff\">\n<!ENTITY nbsp \"&#xA0;\">\n<!ENTITY writer \"Writer: Donald Duck.\">\n<!ENTITY copyright \"Copyright: W3Schools.\">\n]>\n<note>\n\t<!-- Note: commented out the following elements:\n\t<region>somewhere</region>\n\t<language>ISL-2108</language>\n\t-->\n\t<to>Tove</to>\n\t<from>Jani</from>\n\t<heading>Reminder</heading>\n\t<paragraph>Don't forget <b>me</b> this weekend!</paragraph>\n\t<paragraph> - Jani</paragraph>\n\t<footer>&writer;&nbsp;&copyright;</footer>\n\t<signed signer=\"Jani Jane\"/>\n</note>\n"

/-- `sample_xml_2`, api_tests.rs -/
def sample2 : Str := c%"<?xml version=\"1.0\" encoding=\"UTF-8\"?>\n<root author=\"some dude\">\n\t<!--comment-->\n\t<mydata>\n\t\t<desc>This is my data</desc>\n\t\t<properties>\n\t\t\t<property name=\"a\" value=\"1\"/>\n\t\t\t<property name=\"b\" value=\"2\"/>\n\t\t</properties>\n\t\t<meta>My metadata goes here</meta>\n\t\t<other/>\n\t\t<other/>\n\t</mydata>\n</root>\n"

/-- `sample_xml_3`, api_tests.rs -/
def sample3 : Str := c%"<?xml version=\"1.0\" encoding=\"UTF-8\"?>\n<root xmlns=\"internal://ns/a\">\n\t<width>200</width>\n\t<height>150</height>\n</root>\n"

/-- `sample_xml_4`, api_tests.rs -/
def sample4 : Str := c%"<?xml version=\"1.0\" encoding=\"UTF-8\"?>\n<root xmlns:dim=\"internal://ns/b\" xmlns:img=\"internal://ns/a\">\n\t<width>200</width>\n\t<height>150</height>\n\t<depth>50</depth>\n\t<img:width>200</img:width>\n\t<img:height>150</img:height>\n\t<dim:width>200</dim:width>\n</root>\n"

/-- `sample_xml_5`, api_tests.rs -/
def sample5 : Str := c%"<?xml version=\"1.0\" encoding=\"UTF-8\"?>\n<img:root xmlns:dim=\"internal://ns/b\" xmlns:img=\"internal://ns/a\">\n\t<width>200</width>\n\t<height>150</height>\n\t<img:width>200</img:width>\n\t<img:height>150</img:height>\n\t<dim:width>200</dim:width>\n\t<dim:height>150</dim:height>\n</img:root>\n"

/-- `test_xml_escapes`, api_tests.rs -/
example : (
    let unescaped := c%"&<>'\""
    escape unescaped == c%"&amp;&lt;&gt;&apos;&quot;" && okAnd (unescape c%"&amp;&lt;&gt;&apos;&quot;") (· == unescaped) &&
    textEscape unescaped == c%"&amp;&lt;&gt;'\"" && attributeEscape unescaped == c%"&amp;&lt;&gt;&apos;&quot;" &&
    okAnd (unescape c%"&#263c;") (· == c%"☼") && okAnd (unescape c%"&#263C;") (· == c%"☼")) = true := by decide +kernel

/-- `test_round_trip`, api_tests.rs -/
example : (
    okAnd (parseStr sample2) fun d1 => okAnd (parseStr (d1.toStringWithIndent c%"\t")) fun d2 =>
      d1.eq d2 && okAnd (parseStr (d2.toStringWithIndent c%"\t")) fun d3 => d2.toStringWithIndent c%"\t" == d3.toStringWithIndent c%"\t") = true := by decide +kernel

/-- `test_single_quote`, api_tests.rs -/
example : (
    okAnd (parseStr sample1) fun d1 => okAnd (parseStr (replaceChar '"' c%"'" sample1)) fun d2 => d1.root.eq d2.root) = true := by decide +kernel

/-- `test_single_quote`, api_tests.rs -/
example : (
    okAnd (parseStr sample2) fun d1 => okAnd (parseStr (replaceChar '"' c%"'" sample2)) fun d2 => d1.root.eq d2.root) = true := by decide +kernel

/-- `test_single_quote`, api_tests.rs -/
example : (
    okAnd (parseStr sample3) fun d1 => okAnd (parseStr (replaceChar '"' c%"'" sample3)) fun d2 => d1.root.eq d2.root) = true := by decide +kernel

/-- `test_single_quote`, api_tests.rs -/
example : (
    okAnd (parseStr sample4) fun d1 => okAnd (parseStr (replaceChar '"' c%"'" sample4)) fun d2 => d1.root.eq d2.root) = true := by decide +kernel

/-- `test_single_quote`, api_tests.rs -/
example : (
    okAnd (parseStr sample5) fun d1 => okAnd (parseStr (replaceChar '"' c%"'" sample5)) fun d2 => d1.root.eq d2.root) = true := by decide +kernel

/-- `test_dom_parsing`, api_tests.rs -/
example : (
    okAnd (parseStr sample1) fun doc =>
      let root := doc.root
      root.name == c%"note" && doc.declaration.isSome && doc.dtds.length == 1 && root.childElements.length == 7 &&
      root.children.length == 8 && (root.children.filter Node.isElement).length == 7 &&
      (root.children.filter Node.isComment).length == 1 && (root.children.filter Node.isText).length == 0 &&
      okAnd (root.firstElementByName c%"to") (·.textOf == c%"Tove") && (root.elementsByName c%"paragraph").length == 2 &&
      okAnd (root.firstElementByName c%"paragraph") (fun p => p.textOf == c%"Don't forget me this weekend!" &&
        childAt p 0 (·.textOf == c%"Don't forget ") && p.children.length == 3 && (p.children.filter Node.isComment).length == 0) &&
      (((root.elementsByName c%"paragraph")[1]?).map (·.textOf)) == some c%" - Jani" &&
      okAnd (root.firstElementByName c%"signed") (fun s => s.getAttr c%"signer" == some c%"Jani Jane" && (s.getAttr c%"nonexistant").isNone)) = true := by decide +kernel

/-- `test_dom_parsing`, api_tests.rs -/
example : (
    okAnd (parseStr sample1) fun doc =>
      let root := doc.root
      (root.search fun _ => true).length == 17 && (root.search Node.isText).length == 8 &&
      isErr (root.firstElementByName c%"b") && (root.searchElementsByName c%"b").map (·.textOf) == [c%"me"] &&
      (root.searchElements fun e => e.name == c%"b").length == 1 &&
      (root.searchText fun s => contains s c%"weekend") == [c%" this weekend!"] &&
      (root.searchComments fun s => contains s c%"Note:").length == 1 &&
      (root.searchComments fun s => contains s c%"this does not exist").length == 0) = true := by decide +kernel

/-- `test_modify_dom`, api_tests.rs -/
example : (
    okAnd (parseStr sample2) fun doc => okAnd (edits doc [
      fun e => e.setAttr c%"author" c%"some dude",
      at_ (fun e => do e.append (.element (← ElementF.newWithAttributes c%"property" ((SMap.empty.insert c%"name" c%"c").insert c%"value" c%"3")))) [c%"mydata", c%"properties"],
      at_ (fun e => do e.insert 0 (.element (← ElementF.newWithAttributes c%"property" ((SMap.empty.insert c%"name" c%"z").insert c%"value" c%"0")))) [c%"mydata", c%"properties"],
      at_ (fun e => do e.insert 1 (.comment (← commentNew c%"inserted comment"))) [c%"mydata"],
      at_ (fun e => e.append (.text c%"inserted text")) [c%"mydata", c%"other"]])
      fun d => d.toStringWithIndent c%"\t" == c%"<?xml version=\"1.0\" encoding=\"UTF-8\"?>\n<root author=\"some dude\">\n\t<!--comment-->\n\t<mydata>\n\t\t<desc>This is my data</desc>\n\t\t<!--inserted comment-->\n\t\t<properties>\n\t\t\t<property name=\"z\" value=\"0\"/>\n\t\t\t<property name=\"a\" value=\"1\"/>\n\t\t\t<property name=\"b\" value=\"2\"/>\n\t\t\t<property name=\"c\" value=\"3\"/>\n\t\t</properties>\n\t\t<meta>My metadata goes here</meta>\n\t\t<other>inserted text</other>\n\t\t<other/>\n\t</mydata>\n</root>\n") = true := by decide +kernel

/-- `test_remove_1`, api_tests.rs -/
example : (
    okAnd (parseStr sample2) fun doc => okAnd (edits doc [
      fun e => pure (e.removeAttr c%"author").2,
      at_ (fun e => do pure (← e.remove 0).2) [c%"mydata"],
      fun e => do pure (← e.removeAll fun n => n.isText && contains n.textOf c%"My metadata").1,
      at_ (fun e => do pure (← e.removeElementsByName c%"other").1) [c%"mydata"],
      at_ (fun e => do pure (← e.removeElement 1).2) [c%"mydata", c%"properties"]])
      fun d => d.toStringWithIndent c%"\t" == c%"<?xml version=\"1.0\" encoding=\"UTF-8\"?>\n<root>\n\t<!--comment-->\n\t<mydata>\n\t\t<properties>\n\t\t\t<property name=\"a\" value=\"1\"/>\n\t\t</properties>\n\t\t<meta/>\n\t</mydata>\n</root>\n") = true := by decide +kernel

/-- `test_remove_2`, api_tests.rs -/
example : (
    okAnd (parseStr sample2) fun doc => okAnd (edits doc [
      at_ (fun e => do pure (← e.removeElements fun e => e.name == c%"meta").1) [c%"mydata"],
      at_ (fun e => do pure (← e.removeElements fun e => e.name == c%"other").1) [c%"mydata"]])
      fun d => d.toStringWithIndent c%"\t" == c%"<?xml version=\"1.0\" encoding=\"UTF-8\"?>\n<root author=\"some dude\">\n\t<!--comment-->\n\t<mydata>\n\t\t<desc>This is my data</desc>\n\t\t<properties>\n\t\t\t<property name=\"a\" value=\"1\"/>\n\t\t\t<property name=\"b\" value=\"2\"/>\n\t\t</properties>\n\t</mydata>\n</root>\n") = true := by decide +kernel

/-- `test_remove_3`, api_tests.rs -/
example : (
    okAnd (parseStr sample2) fun doc => okAnd (edits doc [
      at_ (fun e => do pure (← e.removeElementsByName c%"property").1) [c%"mydata", c%"properties"],
      fun e => do pure (← e.removeAll fun n => n.isComment || (n.isElement && okAnd n.asElement (·.name == c%"other"))).1])
      fun d => d.toStringWithIndent c%"\t" == c%"<?xml version=\"1.0\" encoding=\"UTF-8\"?>\n<root author=\"some dude\">\n\t<mydata>\n\t\t<desc>This is my data</desc>\n\t\t<properties/>\n\t\t<meta>My metadata goes here</meta>\n\t</mydata>\n</root>\n") = true := by decide +kernel

/-- `test_dom_to_string`, api_tests.rs -/
example : (
    okAnd (parseStr sample2) fun doc => doc.toStringWithIndent c%"\t" == sample2) = true := by decide +kernel

/-- `test_namespaces_1`, api_tests.rs -/
example : (
    okAnd (parseStr sample3) fun doc =>
      doc.root.namespace_ == some c%"internal://ns/a" && doc.root.namespacePrefix.isNone &&
      okAnd (doc.root.firstElementByName c%"width") (·.namespace_ == some c%"internal://ns/a") &&
      okAnd (doc.root.firstElementByName c%"height") (·.namespace_ == some c%"internal://ns/a") &&
      (doc.root.elementsByNamespace (some c%"internal://ns/a")).length == 2 &&
      okAnd (edits doc [fun e => do e.append (.element (← ElementF.new c%"depth" (some c%"50") none none none none))]) fun doc =>
        okAnd (doc.root.firstElementByName c%"depth") (fun x => x.namespace_ == some c%"internal://ns/a" && x.namespacePrefix.isNone)) = true := by decide +kernel

/-- `test_namespaces_2`, api_tests.rs -/
example : (
    okAnd (parseStr sample4) fun doc =>
      doc.root.namespace_.isNone && (doc.root.elementsByNamespace none).length == 3 &&
      (doc.root.elementsByNamespacePrefix (some c%"img")).length == 2 && (doc.root.elementsByNamespacePrefix (some c%"dim")).length == 1 &&
      (doc.root.elementsByNamespace (some c%"internal://ns/a")).length == 2 &&
      (doc.root.elementsByNamespace (some c%"internal://ns/b")).length == 1 && doc.toStringWithIndent c%"\t" == sample4) = true := by decide +kernel

/-- `test_namespaces_3`, api_tests.rs -/
example : (
    okAnd (parseStr sample5) fun doc =>
      doc.root.namespacePrefix == some c%"img" && (doc.root.elementsByNamespacePrefix (some c%"img")).length == 2 &&
      (doc.root.elementsByNamespacePrefix none).length == 2) = true := by decide +kernel

/-- `test_modify_text_and_comments`, api_tests.rs -/
example : (
    okAnd (parseStr c%"<html>\n\t<!-- this is a comment -->\n\t<body>\n\t\tTODO: content here\n\t</body>\n</html>") fun doc => (doc.root.children.filter Node.isComment).length == 1 && isOk (edits doc [
      fun e => do pure (← e.removeAll Node.isComment).1,
      at_ (fun e => do pure (← e.removeAll fun _ => true).1) [c%"body"],
      at_ (fun e => do e.appendAll [.element (← ElementF.newWithText c%"h1" c%"Chapter 1"), .comment (← commentNew c%"Note: there is only one chapter"),
        .element (← ElementF.newWithChildren c%"p" [.text c%"Once upon a time, there was a little ",
          .element (← ElementF.newWithAttributesAndText c%"a" (SMap.empty.insert c%"href" c%"https://en.wikipedia.org/wiki/Gnome") c%"gnome"),
          .text c%" who lived in a walnut tree..."])]) [c%"body"]])) = true := by decide +kernel

/-- `test_content_escapes`, escaping_tests.rs -/
example : (
    okAnd (parseStr c%"<?xml version=\"1.0\" encoding=\"UTF-8\"?>\n<root>&lt;&gt;&amp;&quot;&apos;</root>\n") fun dom => dom.root.textOf == c%"<>&\"'" && dom.toString == c%"<?xml version=\"1.0\" encoding=\"UTF-8\"?>\n<root>&lt;&gt;&amp;\"'</root>\n") = true := by decide +kernel

/-- `test_attribute_escapes`, escaping_tests.rs -/
example : (
    okAnd (parseStr c%"<?xml version=\"1.0\" encoding=\"UTF-8\"?>\n<root a=\"&lt;&gt;&amp;&quot;&apos;\"/>\n") fun dom => dom.root.getAttr c%"a" == some c%"<>&\"'" && dom.toString == c%"<?xml version=\"1.0\" encoding=\"UTF-8\"?>\n<root a=\"&lt;&gt;&amp;&quot;&apos;\"/>\n") = true := by decide +kernel

/-- `test_comment_escapes`, escaping_tests.rs -/
example : (
    okAnd (parseStr c%"<?xml version=\"1.0\" encoding=\"UTF-8\"?>\n<root><!-- &lt;&gt;&amp;&quot;&apos; --></root>\n") fun dom => childAt dom.root 0 (fun n => okAnd n.asComment (· == c%" &lt;&gt;&amp;&quot;&apos; ")) && dom.toString == c%"<?xml version=\"1.0\" encoding=\"UTF-8\"?>\n<root><!-- &lt;&gt;&amp;&quot;&apos; --></root>\n") = true := by decide +kernel

/-- `test_cdata_escapes`, escaping_tests.rs -/
example : (
    okAnd (parseStr c%"<?xml version=\"1.0\" encoding=\"UTF-8\"?>\n<root><![CDATA[<greeting>&lt;&gt;&amp;&quot;&apos;</greeting>]]></root>\n") fun dom => childAt dom.root 0 (fun n => okAnd n.asCData (· == c%"<greeting>&lt;&gt;&amp;&quot;&apos;</greeting>")) && dom.toString == c%"<?xml version=\"1.0\" encoding=\"UTF-8\"?>\n<root><![CDATA[<greeting>&lt;&gt;&amp;&quot;&apos;</greeting>]]></root>\n") = true := by decide +kernel

/-- `test_unclosed_root`, failure_handling.rs -/
example : (isErr (parseStr c%"<?xml version=\"1.0\" encoding=\"UTF-8\"?>\n<config>\n\t<name>My Settings</name>\n\t<sound>\n\t\t<property name=\"volume\" value=\"11\" />\n\t\t<property name=\"mixer\" value=\"standard\" />\n\t</sound>\n<config>\n")) = true := by decide +kernel

/-- `test_issue_12`, issues.rs -/
example : (okAnd (parseStr c%"<root beta=\"1\" alpha=\"2\" xmlns:b=\"internal://b/b\" xmlns=\"internal://a/b\" xmlns:a=\"internal://a/a\"/>") fun d => trim d.toString == trim c%"<root xmlns=\"internal://a/b\" xmlns:a=\"internal://a/a\" xmlns:b=\"internal://b/b\" alpha=\"2\" beta=\"1\"/>") = true := by decide +kernel

/-- `test_issue_17_parse`, issues.rs -/
example : (
    okAnd (parseStr c%"<?xml version=\"1.0\" encoding=\"UTF-8\"?>\n<root>\n\t<!--comment-->\n\t<properties>\n\t\t<property name=\"a\" value=\"1\"/>\n\t</properties>\n\t<mydata><![CDATA[<html><body>This is not<br>XML</body></html>]]></mydata>\n</root>\n") fun dom => okAnd (dom.root.firstElementByName c%"mydata") (fun e => childAt e 0 (fun n => n.isCData &&
      okAnd n.asCData (· == c%"<html><body>This is not<br>XML</body></html>"))) && dom.toStringWithIndent c%"\t" == c%"<?xml version=\"1.0\" encoding=\"UTF-8\"?>\n<root>\n\t<!--comment-->\n\t<properties>\n\t\t<property name=\"a\" value=\"1\"/>\n\t</properties>\n\t<mydata><![CDATA[<html><body>This is not<br>XML</body></html>]]></mydata>\n</root>\n") = true := by decide +kernel

/-- `test_issue_17_modify`, issues.rs -/
example : (
    okAnd (parseStr c%"<?xml version=\"1.0\" encoding=\"UTF-8\"?>\n<root>\n\t<!--comment-->\n\t<properties>\n\t\t<property name=\"a\" value=\"1\"/>\n\t</properties>\n\t<mydata/>\n</root>\n") fun dom => okAnd (edits dom [
      at_ (fun e => do e.append (.cdata (← cdataNew c%"<html><body>This is not<br>XML</body></html>"))) [c%"mydata"]])
      fun dom => dom.toStringWithIndent c%"\t" == c%"<?xml version=\"1.0\" encoding=\"UTF-8\"?>\n<root>\n\t<!--comment-->\n\t<properties>\n\t\t<property name=\"a\" value=\"1\"/>\n\t</properties>\n\t<mydata><![CDATA[<html><body>This is not<br>XML</body></html>]]></mydata>\n</root>\n") = true := by decide +kernel

/-- `test_issue_21_panic`, issues.rs -/
example : (isErr (parseStr c%"\n<property =\n<property />\n")) = true := by decide +kernel

/-- `test_issue_26_panic`, issues.rs -/
example : (okAnd (parseStr c%"\n<properties />\n") fun d => isErr (d.root.removeElement 0)) = true := by decide +kernel

/-- `test_issue_28_panic`, issues.rs -/
example : (isErr (parseStr c%"<ot Xttr=t Xttr\"valud</ro>o\">")) = true := by decide +kernel

/-- `test_issue_29_panic`, issues.rs -/
example : (isErr (parseStr c%"<root><!--></root>")) = true := by decide +kernel

/-- `test_issue_34_escaped_text`, issues.rs -/
example : (
    let xml := c%"<ProductName>&lt;AppName&gt;</ProductName>\n"
    okAnd (parseStr xml) fun d => d.toString == xml) = true := by decide +kernel

/-- `test_issue_33_spaced_attributes`, issues.rs -/
example : (okAnd (parseStr c%"<root a=\"1\" b = \"2\" c= \"3\" d =\"4\" x=\"don't be fooled by =\" y=\" in value\"/>") fun d => trim d.toString == c%"<root a=\"1\" b=\"2\" c=\"3\" d=\"4\" x=\"don&apos;t be fooled by =\" y=\" in value\"/>") = true := by decide +kernel

/-- `test_typecast_error`, misc.rs -/
example : (
    okAnd (parseStr c%"<?xml version=\"1.0\" encoding=\"UTF-8\"?>\n<root>some text\n\t<!--comment-->\n\tmore text\n\t<properties>\n\t\t<property name=\"a\" value=\"1\"/>\n\t</properties>\n\teven more text\n\t<![CDATA[<html><body>This is not<br>XML</body></html>]]>\n</root>\n") fun doc =>
      childAt doc.root 0 (fun n => isErr n.asCData && isErr n.asComment && isErr n.asElement && isOk n.asText) &&
      childAt doc.root 1 (fun n => isErr n.asCData && isOk n.asComment && isErr n.asElement && isErr n.asText) &&
      childAt doc.root 3 (fun n => isErr n.asCData && isErr n.asComment && isOk n.asElement && isErr n.asText) &&
      childAt doc.root 5 (fun n => isOk n.asCData && isErr n.asComment && isErr n.asElement && isErr n.asText)) = true := by decide +kernel

/-- `test_dne_error`, misc.rs -/
example : (okAnd (parseStr c%"<?xml version=\"1.0\" encoding=\"UTF-8\"?>\n<root><properties/></root>\n") fun doc => isErr (doc.root.firstElementByName c%"does-not-exist")) = true := by decide +kernel

/-- `test_index_error`, misc.rs -/
example : (
    okAnd (parseStr c%"<?xml version=\"1.0\" encoding=\"UTF-8\"?>\n<root><properties/></root>\n") fun doc => isErr (doc.root.insert 2 (.text c%"insert")) && isErr (doc.root.remove 1) && isErr (doc.root.removeElement 1)) = true := by decide +kernel

/-- `test_invalid_attribute_name_error`, misc.rs -/
example : (okAnd (ElementF.newFromName c%"root") fun e => isErr (e.setAttr c%"-invalid-attribute" c%"error")) = true := by decide +kernel

/-- `test_invalid_element_name_error`, misc.rs -/
example : (match ElementF.newFromName c%"-invalid-element" with | .err (.invalidElementName _) => true | _ => false) = true := by decide +kernel

/-- `test_dtd_handling`, misc.rs -/
example : (
    okAnd (parseStr c%"<?xml version=\"1.0\" encoding=\"UTF-8\"?>\n<!DOCTYPE note [\n<!ENTITY ignore \"kiss-xml ignores DOCTYPE stuff\">\n<!ENTITY nbsp \"&#xA0;\">\n<!ENTITY writer \"Writer: Donald Duck.\">\n<!ENTITY copyright \"Copyright: W3Schools.\">\n]>\n<note>\n\t<!-- Note: commented out the following elements:\n\t<region>somewhere</region>\n\t<language>ISL-2108</language>\n\t-->\n\t<to>Tove</to>\n\t<from>Jani</from>\n\t<heading>Reminder</heading>\n\t<paragraph>Don't forget <b>me</b> this weekend!</paragraph>\n\t<paragraph> - Jani</paragraph>\n\t<footer>&writer;&nbsp;&copyright;</footer>\n\t<signed signer=\"Jani Jane\"/>\n</note>") fun doc => doc.dtds.length == 1 && doc.doctypeDefsMut.items.length == 1 &&
      isErr (DTD.fromString c%"note1") && isOk (DTD.fromString c%"<!DOCTYPE note1 >") &&
      okAnd (DTD.fromString c%"<!DOCTYPE note1 >") fun d1 => okAnd (DTD.fromString c%"<!DOCTYPE note2 >") fun d2 =>
        (doc.setDoctypeDefs (some [d1, d2])).dtds.length == 2) = true := by decide +kernel

/-- `test_declaration`, misc.rs -/
example : (
    okAnd (ElementF.newFromName c%"root") fun e => startsWith (Document.new e).toString c%"<?xml version=\"1.0\" encoding=\"UTF-8\"?>" &&
      startsWith ((Document.new e).setDeclaration none).toString c%"<root") = true := by decide +kernel

/-- `test_strings`, simple.rs -/
example : (
    okAnd (do
      let e1 ← ElementF.newWithChildren c%"tree" [.element (← ElementF.newWithText c%"speak" c%"bark!")]
      let e2 ← ElementF.newWithAttributesAndText c%"bob" (SMap.empty.insert c%"a" c%"b") c%"I'm Bob."
      let e2 ← e2.append (.element (← ElementF.newWithText c%"greeting" c%"hi there!"))
      let e1 ← e1.append (.element e2)
      let e1 ← e1.append (.comment (← commentNew c%"no comment"))
      e1.append (.element (← ElementF.newWithChildren c%"speak" [.text c%"bark! bark!"]))) fun e1 => e1.toString == c%"<tree>\n  <speak>bark!</speak>\n  <bob a=\"b\">I'm Bob.<greeting>hi there!</greeting></bob>\n  <!--no comment-->\n  <speak>bark! bark!</speak>\n</tree>") = true := by decide +kernel

/-- `test_strings_inline`, simple.rs -/
example : (
    okAnd (do
      let e1 ← ElementF.newWithText c%"tree" c%"bark!"
      let e2 ← ElementF.newWithAttributesAndText c%"bob" (SMap.empty.insert c%"a" c%"b") c%"I'm Bob."
      let e2 ← e2.append (.element (← ElementF.newWithText c%"greeting" c%"hi there!"))
      let e1 ← e1.append (.element e2)
      let e1 ← e1.append (.comment (← commentNew c%"no comment"))
      e1.append (.text c%"bark! bark!")) fun e1 => e1.toString == c%"<tree>bark!<bob a=\"b\">I'm Bob.<greeting>hi there!</greeting></bob><!--no comment-->bark! bark!</tree>") = true := by decide +kernel

/-- the element of `test_node_eq`, simple.rs -/
def tagname (ns : Str) (more : Bool) : R Element := do
  let m := [.comment (← commentNew c%"no comment"),
    .cdata (← cdataNew c%"<html><body>Correct HTML<br>is not valid XML</body></html>"),
    .element (← ElementF.newWithText c%"child" c%"yet more text")]
  let l := if more then m else []
  ElementF.new c%"tagname" (some c%"text") (some (SMap.empty.insert c%"a" c%"1")) (some ns) (some c%"prefix") (some (.text c%"more text" :: l))

/-- `test_node_eq`, simple.rs -/
example : (
    (Node.text c%"Bobalina").eq (.text c%"Bobalina") && !(Node.text c%"Bob").eq (.text c%"Bobalina") &&
    !(Node.text c%"Bobalina").eq (.comment c%"Bobalina") && (Node.comment c%"Bobalina").eq (.comment c%"Bobalina") &&
    !(Node.comment c%"Billbalina").eq (.comment c%"Bobalina") && (Node.cdata c%"Bobalina").eq (.cdata c%"Bobalina") &&
    !(Node.cdata c%"Bobalina").eq (.cdata c%"Ted") &&
    okAnd (tagname c%"http://some/xmlns" true) fun a => (Node.element a).eq (.element a) &&
      okAnd (tagname c%"http://other/xmlns" true) (fun b => !(Node.element a).eq (.element b)) &&
      okAnd (tagname c%"http://some/xmlns" false) (fun b => !(Node.element b).eq (.element a))) = true := by decide +kernel

/-- `test_clone_node`, simple.rs -/
example : (
    okAnd (parseStr c%"<?xml version=\"1.0\" encoding=\"UTF-8\"?>\n<root author=\"some dude\">\n\t<!--comment-->\n\t<mydata>\n\t\tThis is my data\n\t\t<properties>\n\t\t\t<property name=\"a\" value=\"1\"/>\n\t\t\t<property name=\"b\" value=\"2\"/>\n\t\t</properties>\n\t\t<meta>My metadata goes here</meta>\n\t\t<other>\n\t\t\t<![CDATA[<html><body>This is<br>not XML</body></html>]]>\n\t\t</other>\n\t\t<other/>\n\t</mydata>\n</root>\n") fun dom => dom.root.allChildren.all fun n => n.eq n.clone) = true := by decide +kernel

/-- `test_leading_trailing_text`, simple.rs -/
example : (
    let body := fun (d : Document) => okAnd (d.root.firstElementByName c%"body") fun b =>
      childAt b 0 (·.textOf == c%"Linda ") && childAt b 2 (·.textOf == c%" to the store ")
    okAnd (parseStr c%"<xhtml>\n  <body>Linda <b>ran</b> to the store <i>to buy ☼ cookies</i> for the party</body>\n</xhtml>\n\t") fun doc => body doc && okAnd (parseStr doc.toString) fun doc2 => doc.eq doc2 && body doc2) = true := by decide +kernel

/-- `example1`, example1.rs -/
example : (
    okAnd (parseStr c%"<?xml version=\"1.0\" encoding=\"UTF-8\"?>\n<config>\n\t<name>My Settings</name>\n\t<sound>\n\t\t<property name=\"volume\" value=\"11\" />\n\t\t<property name=\"mixer\" value=\"standard\" />\n\t</sound>\n</config>\n") fun dom => okAnd (dom.root.firstElementByName c%"sound") fun s =>
      (s.elementsByName c%"property").all fun p => (p.getAttr c%"name").isSome && (p.getAttr c%"value").isSome) = true := by decide +kernel

/-- `example1`, example2.rs -/
example : (
    okAnd (parseStr c%"<?xml version=\"1.0\" encoding=\"UTF-8\" standalone=\"no\"?>\n<!-- Blue triangle SVG graphic -->\n<svg width=\"100\" height=\"100\" viewBox=\"0 0 100 100\" xmlns=\"http://www.w3.org/2000/svg\">\n  <g id=\"layer1\">\n    <path style=\"fill:#00a6c2;fill-opacity:1;stroke:none\"\n       d=\"M 3,58 57,11 42,64 Z\" id=\"triangle\" />\n  </g>\n</svg>") fun doc => isOk (edits doc [at_ (fun e => do e.append (.element (← ElementF.newWithAttributes c%"path"
      (((SMap.empty.insert c%"style" c%"fill:#ff0000;fill-opacity:0.5;stroke:none").insert c%"d" c%"M 25,25 25,75 75,75, 75,25 Z").insert c%"id" c%"square")))) [c%"g"]])) = true := by decide +kernel

/-- `example3`, example3.rs -/
example : (
    okAnd (ElementF.newFromName c%"politicians") fun e => isOk (edits (Document.new e) [
      fun e => do e.append (.element (← ElementF.newWithText c%"person" c%"Hillary Clinton")),
      fun e => do e.append (.element (← ElementF.newWithText c%"person" c%"Bob Dole"))])) = true := by decide +kernel

end KissXml.Tests
