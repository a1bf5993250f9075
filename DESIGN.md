# Formal model of OrangeAssassin in Lean 4

## 1. Approach

`/repo` is read as text only.  The model lives in `/verif/lean/Verif/`:

* `Model/*.lean`  – shallow, total, computable functions that mirror the Python
  code branch by branch.  Every definition cites file and lines in `/repo`, and
  states its simplifications.  Python exceptions are values (`Except`, or a sum
  type of outcomes).  Mutation through `self`/`msg` becomes a returned new
  state.  Loops become structural recursion or folds.  Where the code has a depth
  limit (includes, meta rules) the model recurses on it.  The search of C32 and
  the proofs about scanners use a counter, with a theorem that it never runs out.
* `Spec/*.lean`   – small independent specifications (what a user would say),
  not using the model's helper functions.
* `Lemmas/*.lean` – helper lemmas.
* `Props/*.lean`  – the property theorems `Cnn_…`, each followed by `example`s
  showing that its hypotheses are met by concrete non-trivial cases.

External behaviour (regular-expression engine, `ipaddress`, `email`, DNS,
database engine, file system, clock, plugin code) is a *parameter* of the model:
the theorems hold for every behaviour of it.

When the code violates a property, the negation is proved (theorem
`Cnn_…_violated`; a statement about a whole class of inputs where possible, a
concrete witness otherwise), and what does hold is proved as `Cnn_…_partial`.
Such a property has the status `partial` in MANIFEST.json, and its note there
says what is missing and why.

## 2. Trusted base

* Lean 4.33.0's kernel, and the elaborator for translating the statements.
* Axioms: at most `propext`, `Classical.choice`, `Quot.sound`.  No own axioms,
  no `sorry`, no `native_decide`, no `bv_decide`.
* The correspondence model ↔ code, established by reading only.
* Python's semantics of `str.split/strip/replace/startswith`, `dict` ordering
  (insertion order), stable `sorted`, exceptions: transcribed in `Model/Py.lean`.
* Numbers: scores are an arbitrary type with addition (no algebraic laws are
  assumed where float addition lacks them) or exact rationals where said so;
  IEEE rounding is not modelled.
* Text is `List Char`; `lower()` is ASCII lower-casing.

What HeadText says of Python's `email` package was compared with version 3.11.10 on a few values, with and without its check of what is written.

## 3. Properties: what is modelled and how it is proved

| id | modelled | proof idea |
|----|----------|-----------|
| C01–C03 | `RuleSet.match` over rules with arbitrary state-transforming outcome | induction over the rule list; equality with an independent spec of the executed prefix |
| C04 | `sorted(items, key=itemgetter(1))` with the reversed `__lt__` as stable insertion sort | permutation, sortedness, stability by induction |
| C05, C06 | `BaseRule.__init__/preprocess/should_check`, `RuleSet.add_rule` | full decision table as a spec function, invariant over any sequence of `add_rule` |
| C07, C08 | `CheckCommand.handle`, `extra_details`, `get_matched_report`, `_interpolate` flags | equational |
| C09 | `MetaRule.postparsing` with `MAX_RECURSION`, `call_postparsing` | structural recursion on remaining depth; invariant "resolved ⊆ closed" |
| C10 | token-level translation of `&&,||,!` and Python evaluation of the resulting expression, with the names of the compiled function's own arguments and numbers Python does not accept | induction over expressions |
| C11–C15 | `PADParser.parse_file/_handle_line/_handle_include/_handle_ifplugin` over an abstract file system | recursion on depth and lines; simulation proofs |
| C16 | `HeaderRule.get_rule`, rule classes' `match` | string lemmas; witness for `lstrip("exists:")` |
| C17 | `perl2re` | string lemmas |
| C18 | `PADParser.get_ruleset`, `add_rule`, `get_rule` | fold invariant |
| C19–C21 | `Conf` with a heap of list objects (aliasing of the class-level defaults) | history induction; witness for leakage |
| C22–C24 | `GlobalContext` registry, `_callback_chain`, `plugin_data` | history induction, refinement to a map |
| C25–C27 | `NetworkListBase`, `NetworkList` | history induction |
| C28–C30 | `Message._parse_relays` | loop invariant over relay list |
| C31 | `Message._parse_sender` | decision logic |
| C32, C33 | `DNSInterface.is_query_restricted/query/available` | recursion with a counter shown sufficient; history induction |
| C34–C36 | `translate_line_breaks`, `_Headers`, address getters | string/list induction |
| C37–C41 | `BaseProtocol.*`, commands, `RequestHandler.handle` over byte streams with arbitrary chunking | induction over the stream |
| C42–C44 | `Server.get_user_ruleset/load_config`, `get_userprefs_path` with `os.path.join` | history induction; path witness |
| C45–C49 | `BayesPlugin` learning over an abstract store, SQL backends as row updates, probability formulas over rationals/reals | history induction; algebra; witnesses |
| C50, C51 | AWL over a table of entries | history induction, refinement to list of past scores |
| C52 | `ShortCircuitRule` composed with `RuleSet.match` | case analysis on top of C01–C03 |
| C53 | `AutoLearnThreshold` | decision logic; witnesses |
| C54 | SPF/DKIM/RelayEval plugin instance state across messages | witnesses; partial theorem for a fresh instance |
| C55 | `get_config_files` over abstract directory listings | list algebra |
| C56 | `_add_header_rule`, `_adjust_headers`, `get_adjusted_message` header part | list induction |
| C57 | `MetaRule.postparsing` over permuted rule lists | closure of resolved rules under nesting depth; rules defined after those they refer to are all kept at any depth (C57_bottom_up), and dropped in every order that begins with the head of a chain of twelve (C57_definition_order_violated) |
| C58 | `EvalRule` parsing and lookup | string lemmas; witnesses for `lstrip("eval:")` and quoted commas |
| C59 | `RuleSet._configure_dns` (DNS options) | equational; violation for the options that are dropped |
| C60, C61 | `_interpolate`, tags | induction over templates |
| C62 | `PADParser` run on preferences after the site files | simulation with the site parser; witnesses |
| C63 | Bayes bands (`check_bayes`) | order reasoning |
| C65, C67 | `plugins/dkim.py`, `plugins/spf.py` | decision logic over arbitrary verification results |
| C66, C68–C70 | `plugins/wlbl_eval.py`, whitelists of `spf.py` | entries as token lists; matching relation by induction |
| C71–C74 | `Message` text, parts, links, identifier, date | induction over parts and over the characters a scanner reads |
| C75–C78 | `received_parser.py`, relay tags, `plugins/relay_eval.py` | list and string lemmas; field expressions are parameters |
| C79 | `plugins/replace_tags.py` | induction over the text of a pattern |
| C80 | `oa/locales.py`, charset rules | membership in the tables; witnesses |
| C81–C83 | character, recipient and date rules of `plugins/header_eval.py` | list induction; order reasoning over rationals; witnesses |
| C84 | `plugins/mime_eval.py`, with `check_for_mime` and the rules that ask for one of its results | one explicit step per part, folded over the parts |
| C85, C86 | `plugins/dns_eval.py`, `reverse_ip` | induction over the names asked, with a log of queries; zones by induction over rules; bits |
| C87 to C91 | `html_parser.py`, `plugins/uri_detail.py`, `plugins/uri_eval.py` | an invariant of the parser over events: entries are exactly the links mentioned; texts by induction over pieces; fuel shown sufficient for redirections |
| C92 to C94 | `plugins/free_mail.py` | classification by cases; an invariant of what is remembered about the body over all sequences of rules; permutations of the set of addresses |
| C95 to C98 | `plugins/body_eval.py` | induction over the tree of parts; counters as multisets of words; induction over the characters of a text |
| C99 | `context.py` (saving and restoring) | invariant of histories (each class once, under the name it was loaded with); induction over the loops of saving and restoring |
| C100 | `scripts/match.py` | induction over the paths and their messages |
| C101, C102 | `header_eval.py`: missing recipients, number of headers | through the lemma that relates stored headers to the written ones |
| C103 | `header_eval.py`: subjects in capital letters | marks are no prefixes of one another, so what is passed over is determined; words of stripped texts |
| C104 | `header_eval.py`: recipients in subjects | the four expressions against an inductive description of the forms |
| C105 | `header_eval.py`: senders compared | containment of texts |
| C106 | `header_eval.py`: forged providers | case analysis, with the expressions as parameters |
| C107 | `image_info.py` | invariant of the statistics along the list of parts; images opened by a parameter |
| C108 | `pdf_info.py` | the same, with the reader of documents as a parameter |
| C109 | `textcat.py` | case analysis; language detection is a parameter |
| C110 | `whitelist_subject.py` | invariant of the lists along the lines of a process |
| C111 | `mime_eval.py`: `check_for_uppercase` | induction on texts and paragraphs; rational numbers for floats |
| C112 to C117 | the services Pyzor, Razor, SpamCop, the countries of relays, and the databases of plugins; the servers, programs and clocks are parameters | inductions over servers, checks, relays and settings; the places where one failure ends the work for the rest are proved to be violations |
| C118 to C122 | the expressions of `received_parser.py` themselves, in a model of the part of `re` they use: a backtracking matcher with groups | the matcher is proved sound and complete for a relation that says which texts an expression reads; that the wrong expressions do not match a line is shown from its words |
| C123 to C125 | `networks.py` with its expression, and `ipaddress.ip_network` for texts of addresses and lengths | an entry is a record with a documented text; its text is proved to be read as that record; numbers of 32 and 128 bits as naturals; entries with a bit after the prefix are proved to make all lookups fail |
| C126 to C132 | `BayesPlugin.tokenise` with its expressions, the stop list, the lists of headers, and the loop over the parts of a domain, for any number of rounds; how Message-ID, Received and Content-Type are prepared is a parameter | a word stands between white space: this is proved to survive each of the substitutions and the splitting into lines and words; conversely every token is followed back to a piece of a text; the loop that does not end, the generator that is not a text, the expression that reads one character of an address and the dependence on the order of headers are proved to be violations |
| C133 to C135 | the rest of `plugins/dkim.py`: the two whitelists, signing practices, rules with named domains | expressions made of plain characters, `.` and `.*` are modelled, others are a parameter; a whitelist is a list of records with a documented text; exact characterisations for the first message of a process by induction over entries and authors; differences from the documentation proved for every pattern and domain |
| C136 to C140 | rules of `plugins/header_eval.py` about forged headers: AOL's relays, GW05, unresolved templates, ratware, Hotmail and MSN, times in Message-IDs | the expressions are modelled in full, with texts put into them where the code does so (others than plain texts are a parameter); each is proved equivalent to a description of the text by the denotation of expressions; reading of dates is a parameter |
| C141 | loading rule files and checking a message, end to end: `Model/Scan.lean` composes the models of the parser, builder, resolution of meta rules, expressions, header rules and rule loop | one theorem from the text of the files to the score, against a specification in which a rule is a condition on the message (`Spec/Scan.lean`); a second theorem says that order and results are determined; includes, sections for plugins, lines for one language and all types of rules are covered; the functions of plugins that `eval:` rules call are parameters that answer by the message alone; hooks and rules of plugins are parameters |
| C142 | the text of wrapped spam: `_get_bounce_message` and the part of `email.generator` that writes it, with the choice of the boundary | a relation says how a reader takes a multipart message apart (`Spec/Wrap.lean`); the loop that chooses the boundary is proved to end with one that is no line of the parts, by counting lines; the folding of headers and base64 are parameters |
| C143 to C145 | `BayesPlugin.scan` with its connection, ignore lists, the data kept for tags, and exceptions | the database, the tokens, the combination and expressions with other special characters are parameters; invariants along histories of scans and learning and along the rules of one message; the tokens shown are texts of tokens of the message that the database knows (C145_shown); the effects of a failure are proved for every later history |
| C146 | `check_for_unique_subject_id` with its eleven expressions and the expression made of the match with `re.X` | what each expression reads is characterised; leftmost matches; identifiers with other special characters are a parameter |
| C147 | the loop of `_parse_message` over the lines with the email library's expression for header lines, and `check_msg_parse_flags` | what the expression reads is characterised; induction over the header lines, with C34 for the styles of line ends |
| C148 | the parts of the auto-whitelist that find the origin, the signing domain and the key of a network, with the part of Python's `ipaddress` that writes addresses | a written address can be read back to its number, so different networks are written differently; the number of dots shows how many zeros were removed |
| C149 | the expressions for IPv6 addresses and for private ones, on the backtracking matcher | the texts the expression reads are proved to be the written forms of addresses in both directions; zeros, loopback and link-local forms by the value of the address |
| C150 | the fifteen expressions of `check_for_skip`, with `LOCALHOST` inside one of them | each expression is proved to read exactly the texts that the specification spells out; the list is then an equivalence |
| C151 | the eleven expressions of `get_helo` on the backtracking matcher | each expression is proved to give exactly the texts of a written format (`Spec/Fields.lean`), with the leftmost, rightmost and longest choice of the matcher as part of the format; the chain of tests is then an equivalence |
| C152 | the expressions of `get_rdns`, the clean-up of the name after them | as C151; three expressions are proved never to be reached (RDNS_SMTP, RDNS_SMTP1, RDNS_RE1) |
| C153 | `get_by`, `get_ident`, `get_id` | as C151; three lines are shown where the answer is not the documented one: an address in the place of the server, a server at the end of the line, and `id ` as the end of another word |
| C154 | `get_envfrom`, `get_auth` with its eight tests | as C151 |
| C155 | checks as two steps each (read, write) on one table, interleaved by an arbitrary schedule; a process that dies takes no more steps | invariant over the schedule; fails for checks of one sender at the same time, a theorem about every table and any number of them |
| C156 | learning and forgetting as programs of atomic steps, one per method of the store, with a proof that all steps together are the functions of C45; interleaved by an arbitrary schedule | steps about different messages commute, so running the rest one after the other is an invariant; fails for one message in two processes and for a process that dies half way, theorems about every store, database and message |
| C157 | `get_user_ruleset` and `load_config` with a list of events (reloads, changes of files) between any two steps; without events they are the functions of C43 | invariants over events: kept rulesets of other users always belong to the definitions in force, the ruleset used was in force during the request; fails for a reload while preferences are parsed (kept until the next reload), between finding and taking a kept ruleset (exception) and for a reload in a reload, each proved for every configuration. Assumed: the signal handler of the `spoon` package, which is not in the repository, calls `load_config` directly; parsing is one step |
| C158 | the three functions `_pre_chew_message_id`, `_pre_chew_received` and `_pre_chew_content_type`, each `re.sub` in its order, in the regex engine of `Re` with `Tokens.sub` | a substitution that reads whole words filters the list of words; alphabet of ids; the three id formats, dates and plain values for all texts around them; fails for Exim ids in Received headers (the expression before it takes the first part only) and for separators in boundaries (replacement is not a raw string), each proved for all values of the form |
| C159 | `_compute_declassification_distance` in real arithmetic (`Real.sqrt`, floor), against the token probabilities of C47 | the quadratic is the condition that the probability passes the border, its only positive root is the one computed; fewer messages never suffice, one more always does; for hammy tokens the number itself suffices up to two millionths (the code subtracts 1e-6 before rounding); for spammy tokens it can be one too small, because the prior of spam is used for ham (proved for all corpora with 3 spam for 67 ham messages). Floats are not modelled |
| C160 | `_load_module_py3` with `sys.modules`, then `load_plugin` of C22 | what importing gives is the last binding of the file, or else one of an older module with the same name; the name of the module drops all of the characters `.pyc` at the end of the file name, so files share modules and overwrite modules of Python (proved for all such names) |
| C161 | `scripts/oad.py` from parsed arguments to effects, `get_default_configs`, `setup_logging`, `err` | case analysis over all options; fails for `--allow-tell` (no effect), actions on systems without default directories, pid files of daemons that could not bind or of other daemons, and messages about wrong rules in scripts without log file. `argparse` and `spoon` are not modelled |
| C162 | `serialize` as steps (open empties the file, pieces are written at the offset of the process, close) of any number of processes, each of which can fail or be killed at each step; both scripts up to the ruleset; `can_compile` | invariant: with one writer at a time the file is what one process has written so far, and no proper beginning of a pickle loads; fails because opening destroys the old rules before the new ones are there, for compilations at the same time, for missing or damaged files, without configuration files, and for Python 4.0 to 4.4. `pickle` is a parameter with two laws (what was written is read; no proper beginning of it is) |
| C163 | `scan` with the tables `bayes_vars` and `bayes_token`, both stores | the branches are those of the scan of C143 to C145 (proved equal); induction over any sequence of checks: all but the access times stays, and a scan does not read them; fails for access times, which an old message sets back, for all users, and for tables with several users (SQLAlchemy raises) |
| C164 | the loop over the plugins of each hook with its three endings, and the stages of a check in order | induction over plugins and stages: the calls made are a sublist of the specified sequence, and all of it if nothing raises; violation: an exception in a hook leaves the check, for all plugins and states |
| C165 | Model/Spamd: the models of the protocol, of the content and headers of a message, and of loading and checking rules put together, from rule files and the bytes of a request to the bytes of the answer | composition of C37, C38, C34, C71, C72 and C141; negation for undecodable subjects |
| C166 | the two hooks after parsing, saving and loading, and the hooks that run again after loading: short-circuiting, networks, DNS, zones, meta rules | every meta rule that is left has been processed, so processing again drops and links nothing; a wrapper around a wrapper never acts; the networks are class attributes and start anew, so they are configured once; the zones are recomputed from the sorted rules, a permutation; violated: the payload of the resolver is lost, and a zone on which two rules disagree can change |
| C167 | the options of the plugin with their types, `check_start` with everything it stores in the order of the code, the dispatch of all fifteen rule functions, several messages after one another | lemmas for the two types of options (words of all lines, elements of the last one), for each name `check_start` stores, and an invariant for the two values a message remembers; then C66, C68 and C70 for the lists. Violated: only the last line counts for six of the options, an empty element of `enlist_uri_host` breaks every check, a rule naming a list with relays does not look at relays |
| C168 | Loading, checking, the tags, templates and answering composed (`Model/SpamdReport.lean`) | From C141 (extended with names, kinds and descriptions), C60 (templates of several lines), C20/C19 (where the options come from) and C07; a percent sign in the template is a counterexample for every rule set |
| C169 | The same composition, for the commands that return the message; how a message with given headers is written is a parameter | From C168's values of the tags, C56 (the stored modifications) and induction over the modifications; a percent sign in a header line is a counterexample for every rule set |
| C170 | main configuration, importable classes with their class attributes, loaded plugins in order, `loadplugin` and option lines (`PluginConf`) | refinement: after a plugin is loaded, it behaves like `Conf.runLines` on the lines nobody before it claims (`C170_since_load`); the rest by C19 and C20; violated for options that an earlier plugin has too (`util_rb_tld` in `HeaderEval`, `FreeMail` and `WLBLEvalPlugin`) and for appended values when a plugin is loaded again; from files: the parser over options and registry (`FullEnv`) does what the lines that count do one after the other (`C170_files`), up to the first that cannot be read (`C170_file_stops`) |
| C171 | TELL down to the plugins: `Tell.tell` runs `hook_report`/`hook_revoke` over the classifier, Pyzor, Razor and SpamCop, changing the database and sending to services | specification: who is told what (`Informed`), the database's contract of C45; induction over the list of plugins. Violated: the class and the places the client names make no difference to what is done |
| C172 | `Functions.withFunctions` puts the modelled functions of plugins (C81, C90, C97, C98, C101-C104, C136, C137, C173) behind the `evalFn` of the whole scan (C141), with the reading of the arguments | specification: `Judges`, what each function looks for, in terms of the message; the theorem is C141's with the assumption about the functions replaced by their specifications. Partial: twelve functions, Python literals that are whole numbers or plain strings; `check_illegal_chars('ALL', …)` is left out because it takes headers away from the rules after it (C172_order_violated) |
| C173 | `BodyEval.stockRe`, the expression of the code as a regular expression of `Re`, and the count of `findAll` | specification: a list of terms, letters spelled with a filler, the words of a text (`WordsOf`); matches between characters that belong to no word do not depend on the rest of the text (`findGo_near`), so that counts add up over words. Violated: terms inside longer words count, terms written as two words do not |
| C174 | the whole scan (C141) on two installations | specification: `Understood`, what the files say, and `Agree`, the same lines about the same rules; the stable order and the results of the common rules are compared through C141's characterisation. Violated: a score that is no number in one rule loses all rules (C174_score_violated). Partial: configurations that can be understood in the grammar of C141; functions of plugins that answer from the message alone |
| C175 | the whole scan (C141) on two installations | specification: `SameRules`, the same defined names with the same conditions; the results are a permutation of each other because `Gives` has one value. Violated for scores: with doubles (`Double`, addition rounded to 53 binary digits) 0.1, 0.2 and 0.3 add up to different numbers in different orders of the files (C175_rounding_violated); the theorem assumes that the order of addition does not matter. Partial: configurations in the grammar of C141; functions that answer from the message alone (see C172_order_violated for one that does not) |
| C176 | parser.py 120-260 once more, with exceptions that carry `recursion_list` (Model/IncludeTrace) | specification: `Path`, include lines that lead from file to file; by induction on the depth and the lines; forgetting the list gives the parser of C11. Violated for the file names: an entry names the included file beside a line of the including one (C176_file_violated, C176_missing_violated); right only for files that include themselves (C176_self_partial) |
| C177 | parser.py 110-248 once more, with what `ctxt.err` logs (Model/ParserLog); the level and the wording are left out | specification: `Deserves`, what there is to complain about in a line, and `Visits`, the lines that are come to; by induction on the depth and the lines; forgetting the complaints gives the parser of C11. Once per line for files without includes (C177_once_partial); violated in paranoid mode, where a missing argument in an included file is reported once per level (C177_repeated_violated) |
| C178 | learning and forgetting with both stores (Model/Bayes) and checking (Model/BayesTouch); the option bayes_auto_expire is read nowhere | violated for all histories: no operation of either store removes a token, so the tokens older than any limit are the same afterwards (C178_expired_violated), and a check keeps every row (C178_checked_violated) |
| C179 | `get_txt` and `get_txt_dnspython` (Model/DkimKey) on top of `DNSInterface.query` (C32) and the DKIM rules (C65); what the library does with a key is a parameter, and so is whether it gives byte strings | specification: `Key`, the joined strings of the first record of the first TXT set; exactly these texts are given to the library (C179_key_partial), and the first rule of a process holds only with such a key (C179_first_partial). Violated: a failed lookup gives a list, whose missing attribute is an exception, after which every rule holds (C179_missing_violated); the same for byte strings (C179_bytes_violated); names that end in a dot escape the restrictions (C179_restricted_violated) |
| C180 | `send_mail_method` (Model/CopSend) under `plugin_report` of C116; the records of a domain and the servers are parameters | specification: `Mx` with its record text, `Address`; the answer is true exactly if a server took the report (C180_honest, C180_report), and it goes to the host of the first record (C180_host_partial). Violated: preferences are ignored, no second server is tried, domains without records get nothing, quoted at signs mislead, HELO names the other side |
| C181 | `get_all_from_headers_addr` (Model/AllFrom) on top of the headers of C14 and `check_freemail_from` of C92; the library's decoding and splitting into addresses are parameters | specification: `Sender`, an address of a header called so or the sender of the envelope; by induction on the list of headers with the invariant `Good` of the caches. Violated if one of the headers can not be read: the exception makes the rule false for every other sender |
| C182 | the rules about lists of addresses on messages (Model/ListRule): the generators of message.py 520-547 as they are consumed by `check_address_in_list`, header by header; entries as in C66 | specification: `InHeader` of C181, `OnList` with C66's meaning of entries; by induction on the headers with the invariant of the caches. Violated: any address in a Resent-From header that is not on the list hides every author, and so does a From or Resent-From header that can not be read |
| C183 | `check_freemail_header` and `check_freemail_replyto` on the headers of a message (Model/FreeHeader), with `msg.msg[name]`; the expression that finds addresses is a parameter, and a value is taken to be text | induction on the headers: the first one of the name decides. Violated for every message with two headers of the name: the later ones are not looked at, so a first one without free mail, or an empty one, hides them |
| C184 | Model/Report (as for C56): the lines, the adjusted message, the wrapping message | Proved: with no marks on the original, and for every wrapped message, only marks of the lines. Proved: one way of writing the lines that keeps forged marks of a name out. Refuted: a mark that the sender wrote stays, before the one that is added, unless a remove_header line for the verdict names it |
| C185 | Model/HeadText: how Python's email package writes headers (short ASCII values), for versions with and without a check; with Model/Report and Model/RuleSet for the report | Proved for values that are on one line or folded. Refuted for report_safe 0 and any rule that matches: the report begins with a line break and a star, which raises an exception in strict versions and ends the headers in the others. Refuted for add_header lines with _PREVIEW_: a form feed in the text does the same. Refuted for every message with a form feed in a header that is not wrapped |

Everything listed can be expressed in a model; none is planned as
`not_applicable`.

## 4. What is modelled

Line numbers are at each definition.

| code | model |
|------|-------|
| `oa/rules/base.py`, `ruleset.py`, `meta.py`, `header.py`, `eval_.py`, the body/uri/full rules | Rule, RuleSet, Meta, MetaExpr, HeaderRule, Build, Report |
| `oa/rules/parser.py`, `oa/conf.py`, `oa/context.py`, `oa/config.py` | Parser, ParserEnv, Build, Conf, Context, Server |
| `oa/regex.py` | Regex |
| `oa/message.py` | Headers, Content, Relays, Received |
| `oa/received_parser.py` (selection and use of headers; the field expressions are parameters) | Received |
| `oa/networks.py`, `oa/dns_interface.py` | Networks, Dns |
| `oa/protocol/*.py`, `oa/server.py` | Protocol, Utf8, Server, ServerSteps |
| `plugins/bayes.py` (learning, stores, probabilities, combination, bands) | Bayes, BayesSteps, BayesScore |
| `plugins/awl.py`, `auto_learn_threshold.py`, `short_circuit.py` | Awl, AwlKey, AwlProcs, AutoLearn, ShortCircuit |
| `plugins/spf.py`, `dkim.py`, `wlbl_eval.py`, `relay_eval.py` | SenderAuth, Wlbl, Received |
| `plugins/replace_tags.py`, `oa/locales.py` | ReplaceTags, Locales |
| `plugins/header_eval.py` (characters, recipients, dates), `mime_eval.py`, `dns_eval.py` | HeaderChars, Recipients, Dates, MimeEval, DnsEval |
| `html_parser.py`, `plugins/uri_detail.py`, `plugins/uri_eval.py` | Links |
| `plugins/uri_eval.py` 20, 39-41 | Redirect |
| `rules/eval_.py` 17-24, 39-40, 70-77 with twelve functions of `plugins/` | Functions |
| `plugins/body_eval.py` 17-31, 205-219 | Stock |
| `plugins/free_mail.py` (the expressions are parameters) | FreeMail |
| `plugins/body_eval.py` (`check_stock_info` in Stock) | BodyEval |
| `context.py` 54-72 (not `pickle`, nor what of a ruleset lies outside the context) | Serialise |
| `scripts/match.py` (the loops of `main`) | Script |
| `header_eval.py` 273-365, 569-600, 718-755 and the rules about missing recipients, numbers of headers and capital letters | HeaderRules |
| `image_info.py`, `pdf_info.py` without the parsing of images and documents, which is a parameter | Attachments |
| `textcat.py`, `whitelist_subject.py`, `mime_eval.py` 309-333 | Texts |
| `pyzor.py`, `razor2.py`, `relay_country.py`, `spam_cop.py`, `plugins/base.py` 20-63, 109-132 | Services |
| `received_parser.py` with its expressions | Received, ReceivedRe, Re |
| `networks.py` 9-35, 86-93, with the expression and `ip_network` (not: masks written as addresses, IPv6 with an IPv4 tail or a scope) | NetText, Re |
| `context.py` 35-44, 305 (`DSN_SERVER_RE`), `dns_interface.py` 52-59 | DnsText, Re |
| `plugins/bayes.py` 52-59, 213-437, 500-526, 582-600, 765-959, 1034-1058 (tokens; not the hashing) | Tokens, Re |
| `plugins/bayes.py` 961-1032 (normalising of Message-ID, Received, Content-Type) | Chew |
| `plugins/bayes.py` 1287-1329 (declassification distance) | BayesDistance |
| `context.py` 169-207, 255-261 with Python's `sys.modules` | PluginFile |
| `scripts/oad.py`, `config.py` 34-94, `context.py` 154-167 | Daemon |
| `rules/parser.py` 110-260 with the list of includes in the recursion error, and with the complaints that are logged | IncludeTrace, ParserLog |
| `scripts/compile.py` 98-128, `oa/common.py`, `scripts/match.py` 108-151 (not `argparse`, `pickle`, nor what parsing does) | Compile |
| `plugins/bayes.py` 1140-1248 with `db/bayes/mysql.py` 43-53, 114-121 and `db/bayes/sqlalchemy.py` 116-126, 184-190 (not the comparison of texts by MySQL) | BayesTouch |
| `oa/context.py` 111-124, 338-349, 376-392 with `oa/message.py` 429-490 and `oa/rules/ruleset.py` 341-366 (the order of the stages; what they do is in other modules) | Hooks |
| oa/server.py 37-49, oa/protocol/base.py 20-99, oa/protocol/check.py 14-42, oa/message.py 134-170, 429-490, put together | Spamd |
| oa/rules/parser.py 309-312, scripts/match.py 108-112, 149-156, oa/context.py 325-342, oa/rules/ruleset.py 289-339, oa/dns_interface.py 51-58 | Restore |
| oa/plugins/wlbl_eval.py 18-95, 157-191, 212-244, 261-384, 441-462 (options, check_start, the rule functions) | WlblConf |
| oa/rules/ruleset.py 60-139, 244-306, oa/protocol/check.py 45-74, oa/conf.py 188-201, composed | SpamdReport |
| oa/conf.py 33-41, 173-185, oa/context.py 169-207, 276-284, oa/plugins/base.py 190-199, composed; options of HeaderEval, FreeMail, WLBLEvalPlugin | PluginConf |
| oa/context.py 356-366, oa/protocol/tell.py 15-31, oa/plugins/bayes.py 602-610, oa/plugins/razor2.py 80-116 | Tell |
| oa/rules/parser.py 101-108 and 212-284 over oa/context.py 169-207 and 276-284: the parser with registry and options together | FullEnv |
| `plugins/spam_cop.py` 58-80 (sending) | CopSend |
| oa/rules/ruleset.py 188-189 with `email.generator` and `email.header` (short ASCII values) | HeadText |
| `message.py` 275-285, `plugins/free_mail.py` 205-206 | AllFrom |
| `message.py` 520-547 with `plugins/wlbl_eval.py` 212-219, 281-332 | ListRule |
| `plugins/free_mail.py` 106-180, 235-287 with `msg.msg[name]` | FreeHeader |
| `plugins/dkim.py` 60-83 (keys) | DkimKey |
| `plugins/dkim.py` 99-260 (whitelists, practices, named domains) | Dkim |
| `plugins/header_eval.py` 64-74, 197-271, 453-468, 602-642, 656-716 (forged headers) | Forgery |
| `rules/parser.py` 286-337, `rules/ruleset.py` 289-293, 329-366 together with `rules/{body,full,uri,header,meta,base}.py` (end to end) | Scan |
| `rules/ruleset.py` 172-242 with `email.generator` for a message of two parts | Wrap |
| `plugins/bayes.py` 532-580, 602-660, 738-763, 1060-1088, 1126-1272, 1331-1379 (not the declassification distance), `oa/db/bayes` | BayesScan |
| `plugins/header_eval.py` 103-140 | SubjectId, Re |
| `message.py` 434-452, `plugins/mime_eval.py` 269-300, `email.feedparser.headerRE` | HeadEnd, Re |
| Python built-ins used by these | Py, Utf8 |

Not modelled: process management and signals beyond ServerSteps (reloads) and Daemon (options), sockets beyond the byte stream;
logging, except the complaints of the parser and where messages go (Daemon, ParserLog); `argparse` in the scripts; the regular-expression engine itself, except for the expressions of
`received_parser.py`, `networks.py`, of nameservers and of the Bayes tokens;
`email`, `ipaddress`, `dns`, `spf`, `dkim`, SQL engines (parameters with stated
contracts); concurrent writers to a store beyond the steps of AwlProcs and BayesSteps; plugins not in the table.

## 5. Wrong programs

`tools/mutate.py` applies one edit to one model definition in a scratch copy and
rebuilds everything that depends on it.  `seeded/LOG.jsonl` has one line per
attempt; `result` is

* `killed`: a property theorem no longer proves;
* `lemma`: a lemma the property theorems of that file rest on no longer proves,
  so that they are not built (no later theorem of the file is accepted);
* `example`: only a concrete case fails.  Such cases were tightened, or the edit
  concerns a value that no property speaks about;
* `survived`: nothing failed.  The theorem named under `tightened` was then
  strengthened and the edit run again, or a `note` explains why the edited
  program behaves the same;
* `invalid`: the edited model is no program (type error).
