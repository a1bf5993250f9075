{"id": "C01", "title": "Score accounting", "statement": "Checking a message against a ruleset leaves the message with exactly: its starting score plus, in execution order, the score of every rule that is recorded as matched, provided the rules themselves do not write the score. Every executed rule has exactly one recorded result.", "quantifier": "all rulesets, all messages, all rule outcomes (match, no match, text result, exception)", "why_tests_cant": "The number of rules and the combination of outcomes is unbounded; tests check a handful of fixed rule lists.", "anchors": ["oa/rules/ruleset.py:RuleSet.match"]}
{"id": "C02", "title": "A failing rule cannot affect other rules", "statement": "If evaluating one rule raises an error other than the stop request, that rule counts as not matched, and the results, score contribution and evaluation of every other rule are the same as if that rule had simply not matched.", "quantifier": "all rulesets, all positions of the failing rule(s), all error kinds", "why_tests_cant": "Must hold for every position and every combination of failing rules.", "anchors": ["oa/rules/ruleset.py:RuleSet.match", "oa/rules/eval_.py:EvalRule.match"]}
{"id": "C03", "title": "Stopping early", "statement": "When a rule asks to stop processing, no later rule is evaluated or scored, every earlier result is kept, and the end-of-check and auto-learn notifications are still delivered exactly once each.", "quantifier": "all rulesets and all positions of the stopping rule", "why_tests_cant": "Quantifies over every prefix of every ruleset.", "anchors": ["oa/rules/ruleset.py:RuleSet.match", "oa/errors.py:StopProcessing"]}
{"id": "C04", "title": "Execution order", "statement": "After loading, rules are evaluated in order of decreasing priority, and rules of equal priority in the order in which they were first defined; no rule is lost or duplicated by the ordering.", "quantifier": "all sets of rules and priorities", "why_tests_cant": "Sorting correctness and stability over every permutation of priorities.", "anchors": ["oa/rules/ruleset.py:RuleSet.post_parsing", "oa/rules/base.py:BaseRule.__lt__"]}
{"id": "C05", "title": "Non-scoring rules stay silent", "statement": "A rule whose name starts with two underscores, or whose effective score is zero, is never evaluated on its own and never contributes to the score or the list of matched rules; every other rule is evaluated.", "quantifier": "all rule names, scores, flags and configurations", "why_tests_cant": "Combination of names, score lists and four configuration switches.", "anchors": ["oa/rules/base.py:BaseRule.should_check", "oa/rules/ruleset.py:RuleSet.add_rule"]}
{"id": "C06", "title": "Score selection", "statement": "The effective score of a rule is: 0 for names starting with two underscores or when a flag (net, noautolearn, learn, userconf) disables it under the configuration; the single given score; the entry of a four-score list selected by (Bayes enabled, network enabled); -1 by default for rules flagged nice and 1 by default otherwise. A score list of another length is rejected.", "quantifier": "all names, score lists, flag lists and configurations", "why_tests_cant": "The full decision table times arbitrary score values.", "anchors": ["oa/rules/base.py:BaseRule.__init__", "oa/rules/base.py:BaseRule.preprocess"]}
{"id": "C07", "title": "One spam verdict everywhere", "statement": "For one checked message the verdict reported by CHECK/SYMBOLS/REPORT/PROCESS/HEADERS, the decision of REPORT_IFSPAM to include a report, the YESNO template tags and the choice of spam or ham header modifications all agree, and are exactly 'score >= required score'.", "quantifier": "all scores, thresholds and commands", "why_tests_cant": "The boundary score = threshold and all commands must agree for every pair of numbers.", "anchors": ["oa/protocol/check.py:CheckCommand.handle", "oa/protocol/check.py:ReportIfSpamCommand.extra_details", "oa/rules/ruleset.py:RuleSet.get_adjusted_message", "oa/rules/ruleset.py:RuleSet._interpolate"]}
{"id": "C08", "title": "Matched-rule listings are complete and exact", "statement": "The SYMBOLS response, the TESTS tag, the summary and the detailed report list exactly the rules that matched, each once, in evaluation order, and 'none' is shown exactly when nothing matched.", "quantifier": "all rulesets and outcomes", "why_tests_cant": "Unbounded lists of rules and outcomes.", "anchors": ["oa/protocol/check.py:SymbolsCommand.extra_details", "oa/rules/ruleset.py:RuleSet.get_matched_report", "oa/rules/ruleset.py:RuleSet.get_summary_report", "oa/rules/ruleset.py:RuleSet._interpolate"]}
{"id": "C09", "title": "Meta-rule resolution terminates and is sound", "statement": "Resolving meta rules terminates for every reference graph, including self references and cycles. In the tolerant mode it never fails with an invalid-rule error; every meta rule that survives refers only to rules that exist and were themselves resolved; any meta rule on or leading only into a cycle, or referring to an undefined rule, is dropped.", "quantifier": "all finite reference graphs between rules", "why_tests_cant": "Graphs of every size and shape, including cycles longer than the recursion limit.", "anchors": ["oa/rules/meta.py:MetaRule.postparsing", "oa/rules/ruleset.py:RuleSet.call_postparsing"]}
{"id": "C10", "title": "Meta-rule meaning", "statement": "The result of a meta rule is the value of its boolean/arithmetic expression where each rule name stands for that rule's own result on the same message.", "quantifier": "all expressions over &&, ||, !, parentheses, comparisons, sums and rule names, and all assignments", "why_tests_cant": "Expression trees of unbounded size.", "anchors": ["oa/rules/meta.py:MetaRule.postparsing", "oa/rules/meta.py:MetaRule.match"]}
{"id": "C11", "title": "Include files terminate", "statement": "Parsing a file with include directives terminates for every include graph. A graph whose include chains are at most ten deep is parsed as if every included file were pasted in place; a chain that is deeper (in particular every cycle) is reported as a recursion error.", "quantifier": "all file systems and include graphs, including cyclic ones", "why_tests_cant": "Unbounded graphs; cycles are exactly what a finite test list misses.", "anchors": ["oa/rules/parser.py:PADParser.parse_file", "oa/rules/parser.py:PADParser._handle_include"]}
{"id": "C12", "title": "Conditional sections", "statement": "Lines in a section that is disabled by ifplugin/else have no effect on the resulting rules and options; lines in an enabled section have the same effect as without the conditional.", "quantifier": "all files, plugin sets and section contents", "why_tests_cant": "All contents and all (including nested) arrangements of conditionals.", "anchors": ["oa/rules/parser.py:PADParser._handle_line", "oa/rules/parser.py:PADParser._handle_ifplugin"]}
{"id": "C13", "title": "Rule definitions accumulate per name", "statement": "For each rule name and each attribute (score, priority, describe, tflags, definition) the value used is that of the last line that sets it; lines about other rule names have no influence, and rules keep the order of their first mention.", "quantifier": "all sequences of definition lines", "why_tests_cant": "All interleavings of definitions of all names.", "anchors": ["oa/rules/parser.py:PADParser._handle_line"]}
{"id": "C14", "title": "Comments and blank lines are inert", "statement": "Blank lines, lines starting with '#', and text following an unescaped '#' do not change the meaning of a file.", "quantifier": "all lines and all comment texts", "why_tests_cant": "All strings.", "anchors": ["oa/rules/parser.py:PADParser._handle_line", "oa/rules/parser.py:_COMMENT_P"]}
{"id": "C15", "title": "Tolerant parsing", "statement": "In tolerant mode a malformed line never aborts the parsing and has no effect on what any other line defines; in paranoid mode the first malformed line is reported.", "quantifier": "all files and all positions of malformed lines", "why_tests_cant": "Every position of any number of malformed lines.", "anchors": ["oa/rules/parser.py:PADParser.parse_file", "oa/rules/parser.py:PADParser._paranoid"]}
{"id": "C16", "title": "Header rule meaning", "statement": "A header rule tests exactly the header it names: 'NAME =~ /re/' matches if some value of that header matches, 'NAME !~ /re/' if some value does not match, the modifiers raw/addr/name select the corresponding view, ALL/ToCc/MESSAGEID select their documented groups, and 'exists:NAME' matches exactly when the header NAME is present.", "quantifier": "all header names, patterns and messages", "why_tests_cant": "All names (the exists: prefix is stripped by a character set) and all messages.", "anchors": ["oa/rules/header.py:HeaderRule.get_rule", "oa/rules/header.py:_ExistsHeaderRule"]}
{"id": "C17", "title": "Perl pattern translation", "statement": "A pattern written with any supported delimiter and flags is translated to the text between the delimiters with the corresponding flags; malformed patterns are rejected with an invalid-regex error; a '!~' pattern matches exactly when the same '=~' pattern does not.", "quantifier": "all pattern strings, delimiters and flags", "why_tests_cant": "All strings.", "anchors": ["oa/regex.py:perl2re", "oa/regex.py:NotMatchPattern"]}
{"id": "C18", "title": "Building the ruleset", "statement": "In tolerant mode every parsed rule with a valid definition ends up in the ruleset exactly once, every invalid one is dropped without influencing the others; in paranoid mode the first invalid rule is reported.", "quantifier": "all parse results", "why_tests_cant": "All mixtures of valid and invalid rules.", "anchors": ["oa/rules/parser.py:PADParser.get_ruleset", "oa/rules/ruleset.py:RuleSet.add_rule", "oa/rules/ruleset.py:RuleSet.get_rule"]}
{"id": "C19", "title": "Typed options", "statement": "A configuration line sets exactly the option it names to the value its type prescribes (int, float, bool, str, list, time value with unit), ill-typed values are reported without changing anything, and unknown keys change nothing.", "quantifier": "all keys and value strings", "why_tests_cant": "All strings.", "anchors": ["oa/conf.py:Conf.parse_config", "oa/conf.py:Conf.set_timevalue_option"]}
{"id": "C20", "title": "Appending options", "statement": "An option that may be given several times holds, after any sequence of configuration lines, exactly the values given since the last corresponding clear line, in order (preceded by the defaults if there was none).", "quantifier": "all sequences of configuration lines", "why_tests_cant": "Histories of unbounded length.", "anchors": ["oa/conf.py:Conf.set_append_option", "oa/conf.py:Conf.set_append_split_option", "oa/conf.py:Conf.set_clear_option"]}
{"id": "C21", "title": "Configuration isolation", "statement": "Loading a configuration into one context has no influence on a context created afterwards (for instance another user's configuration, or a reload).", "quantifier": "all configuration histories and all pairs of contexts", "why_tests_cant": "History of the whole process matters.", "anchors": ["oa/conf.py:Conf.__init__", "oa/conf.py:Conf.set_append_option", "oa/networks.py:NetworkList"]}
{"id": "C22", "title": "Plugin registry", "statement": "After any sequence of plugin loads and unloads the loaded plugins are exactly those loaded and not unloaded since; the eval rules available are exactly those of loaded plugins, each resolved to the plugin loaded most recently among those defining it.", "quantifier": "all sequences of load and unload operations", "why_tests_cant": "Histories of unbounded length with overlapping names.", "anchors": ["oa/context.py:GlobalContext.load_plugin", "oa/context.py:GlobalContext.unload_plugin"]}
{"id": "C23", "title": "Callback chains", "statement": "Each notification is delivered to the loaded plugins in registration order until one of them asks to inhibit the rest; the result tells whether that happened; a configuration line is offered to the main configuration first and then to plugins until one claims it.", "quantifier": "all plugin lists and plugin reactions", "why_tests_cant": "All lists and reactions.", "anchors": ["oa/context.py:_callback_chain", "oa/context.py:GlobalContext.hook_parse_config"]}
{"id": "C24", "title": "Plugin data is private", "statement": "Data stored for one plugin under one key is returned unchanged until that key is overwritten or deleted and is never affected by operations on other plugins, other keys, or other messages.", "quantifier": "all sequences of store operations", "why_tests_cant": "Histories of unbounded length.", "anchors": ["oa/context.py:_Context.set_plugin_data", "oa/context.py:_Context.get_plugin_data", "oa/context.py:_Context.del_plugin_data", "oa/context.py:_Context.pop_plugin_data"]}
{"id": "C25", "title": "Network lists: first match decides", "statement": "An address belongs to a configured network list exactly when the first entry containing it is not an exclusion; adding entries at the end never changes the answer for an address already covered.", "quantifier": "all entry lists and addresses", "why_tests_cant": "All lists and addresses.", "anchors": ["oa/networks.py:NetworkListBase.__contains__"]}
{"id": "C26", "title": "Loopback is always trusted and internal", "statement": "Whatever networks are configured, in whatever order, loopback addresses are trusted and internal.", "quantifier": "all configuration sequences", "why_tests_cant": "All histories of configuration operations.", "anchors": ["oa/networks.py:NetworkList", "oa/networks.py:TrustedNetworks"]}
{"id": "C27", "title": "Trusted / internal defaults", "statement": "As long as no internal (or MSA) network is configured, internal and trusted networks coincide; once internal networks are given, an address is internal only if loopback or listed as internal, and every listed internal network is also trusted unless an earlier entry excludes it.", "quantifier": "all configuration sequences and addresses", "why_tests_cant": "All histories.", "anchors": ["oa/networks.py:NetworkList.add_trusted_network", "oa/networks.py:NetworkList.add_internal_network", "oa/networks.py:NetworkList.add_msa_network"]}
{"id": "C28", "title": "Relay classification is a partition", "statement": "Every relay with an address is classified as exactly one of trusted/untrusted and exactly one of internal/external, order is preserved, and relays without address are in none of the lists.", "quantifier": "all relay lists, all network configurations", "why_tests_cant": "Unbounded lists.", "anchors": ["oa/message.py:Message._parse_relays"]}
{"id": "C29", "title": "Trust is a prefix", "statement": "Walking from the receiving side, once a relay is untrusted all later ones are untrusted, once external all later ones are external, and every internal relay is trusted.", "quantifier": "all relay lists, all network configurations", "why_tests_cant": "Unbounded lists; security relevant: a forged relay must not regain trust.", "anchors": ["oa/message.py:Message._parse_relays"]}
{"id": "C30", "title": "Who extends trust", "statement": "With networks configured, the trusted prefix extends exactly through relays that are in the trusted networks or authenticated, until an MSA relay is met, after which the trust state is frozen; with none configured it extends through private or authenticated relays.", "quantifier": "all relay lists, all network configurations", "why_tests_cant": "Unbounded lists.", "anchors": ["oa/message.py:Message._parse_relays"]}
{"id": "C31", "title": "Envelope sender selection", "statement": "The envelope sender is taken from the first source that provides one, in the documented order; when external relays exist, message headers, which the sender controls, are never used.", "quantifier": "all relay lists and header contents", "why_tests_cant": "All combinations of sources.", "anchors": ["oa/message.py:Message._parse_sender"]}
{"id": "C32", "title": "DNS query restrictions", "statement": "A query is suppressed exactly when the closest listed ancestor of the name (or the name itself) is listed as denied; the search terminates for every name; suppressed queries reach no resolver.", "quantifier": "all names and restriction tables", "why_tests_cant": "Names of unbounded depth.", "anchors": ["oa/dns_interface.py:DNSInterface.is_query_restricted", "oa/dns_interface.py:DNSInterface.query"]}
{"id": "C33", "title": "DNS availability test", "statement": "With 'test' mode the availability is re-tested at most once per interval, and between tests the last answer is used; with yes/no no test query is ever sent.", "quantifier": "all sequences of queries and times", "why_tests_cant": "Time histories.", "anchors": ["oa/dns_interface.py:DNSInterface.available"]}
{"id": "C34", "title": "Line-break normalisation", "statement": "The normalised message contains no carriage return, messages that differ only in line-ending style normalise to the same text, and normalising twice changes nothing.", "quantifier": "all texts", "why_tests_cant": "All strings.", "anchors": ["oa/message.py:Message.translate_line_breaks"]}
{"id": "C35", "title": "Header access", "statement": "Header lookup ignores the case of the name, returns all values in message order, and headers with other names have no influence.", "quantifier": "all header lists and names", "why_tests_cant": "All lists.", "anchors": ["oa/message.py:_Headers", "oa/message.py:Message._parse_message", "oa/message.py:Message.get_raw_header"]}
{"id": "C36", "title": "Author and recipient addresses", "statement": "The addresses used as author/recipient are those of the Resent headers if there are any and otherwise those of the documented header list in that order.", "quantifier": "all messages", "why_tests_cant": "All combinations of headers.", "anchors": ["oa/message.py:Message.get_from_addresses", "oa/message.py:Message.get_to_addresses"]}
{"id": "C37", "title": "Request options", "statement": "Request option lines are read up to the first blank line, names are case-insensitive, the last value given for a name wins, and a line without a colon yields exactly the 76 error response and nothing else.", "quantifier": "all request byte streams", "why_tests_cant": "All streams.", "anchors": ["oa/protocol/base.py:BaseProtocol.get_options", "oa/protocol/base.py:BaseProtocol.get_and_handle"]}
{"id": "C38", "title": "Message framing", "statement": "With a content length n, the message is exactly the next n bytes of the connection (or fewer if it closes) and not a single byte more is consumed, however the transport splits the data; without it, everything up to the close. A negative or non-numeric length is rejected with the 76 response.", "quantifier": "all lengths, streams and transport chunkings", "why_tests_cant": "All chunkings and lengths around the 8192 chunk size.", "anchors": ["oa/protocol/base.py:BaseProtocol.get_message"]}
{"id": "C39", "title": "Response framing", "statement": "Every well-formed request is answered with exactly one status line, followed only in the success case by the command's response; for the checking commands the announced content length is the length of the payload that follows.", "quantifier": "all requests and response payloads", "why_tests_cant": "All payloads including non-ASCII ones.", "anchors": ["oa/protocol/base.py:BaseProtocol.get_and_handle", "oa/protocol/check.py:CheckCommand.handle"]}
{"id": "C40", "title": "Command dispatch", "statement": "Commands are recognised case-insensitively and run the command they name; anything else is answered with the 76 error line only; SKIP produces no output and PING answers PONG.", "quantifier": "all request lines", "why_tests_cant": "All strings.", "anchors": ["oa/server.py:RequestHandler.handle", "oa/server.py:COMMANDS", "oa/protocol/noop.py"]}
{"id": "C41", "title": "TELL", "statement": "TELL reports exactly when Set is given and revokes exactly when Remove is given, each once, report before revoke, and the response lists exactly the performed actions.", "quantifier": "all option combinations", "why_tests_cant": "All option values.", "anchors": ["oa/protocol/tell.py:TellCommand.handle"]}
{"id": "C42", "title": "Per-user rules are gated", "statement": "Unless user rules are allowed, the site ruleset is used for every request whatever user is named; when allowed, a user without preferences gets the site ruleset, and one user's preferences never influence another user's or the site ruleset.", "quantifier": "all request sequences and user names", "why_tests_cant": "Histories of requests and reloads.", "anchors": ["oa/server.py:Server.get_user_ruleset"]}
{"id": "C43", "title": "Reload takes effect", "statement": "After a reload every later request uses rules computed from the new files; between reloads a user's preferences are read at most once and every request of that user sees the same rules.", "quantifier": "all request/reload sequences", "why_tests_cant": "Histories.", "anchors": ["oa/server.py:Server.load_config", "oa/server.py:Server.get_user_ruleset"]}
{"id": "C44", "title": "User preference path stays in the user area", "statement": "The preference file read for a user named in a request lies below the user area /home/<user>.", "quantifier": "all user names a client can send", "why_tests_cant": "All strings, including absolute paths and '..'.", "anchors": ["oa/config.py:get_userprefs_path", "oa/server.py:Server.get_user_ruleset"]}
{"id": "C45", "title": "Learning is idempotent and reversible", "statement": "Learning the same message twice as the same class changes nothing the second time; learning it as the other class leaves the database as if it had only been learned as that class; forgetting restores the database to the state without the message.", "quantifier": "all learning histories and messages", "why_tests_cant": "Histories of unbounded length.", "anchors": ["oa/plugins/bayes.py:BayesPlugin.learn_message", "oa/plugins/bayes.py:BayesPlugin._learn_trapped", "oa/plugins/bayes.py:BayesPlugin.forget_message", "oa/plugins/bayes.py:BayesPlugin._forget_trapped"]}
{"id": "C46", "title": "Stored counts equal the learned history", "statement": "The stored number of spam/ham messages and per-token counts equal the number of currently learned messages of that class (containing the token).", "quantifier": "all learning histories", "why_tests_cant": "Histories.", "anchors": ["oa/db/bayes/sqlalchemy.py", "oa/db/bayes/mysql.py"]}
{"id": "C47", "title": "Token probabilities are probabilities", "statement": "Every token probability computed is strictly between 0 and 1, tokens with no information are skipped, and more spam occurrences never lower it.", "quantifier": "all counts", "why_tests_cant": "All numbers.", "anchors": ["oa/plugins/bayes.py:BayesPlugin._compute_prob_for_token"]}
{"id": "C48", "title": "Combined score is a probability", "statement": "The combined Bayes score of any list of token probabilities lies in [0,1].", "quantifier": "all lists of probabilities", "why_tests_cant": "All lists of numbers.", "anchors": ["oa/plugins/bayes.py:NaiveBayesCombiner", "oa/plugins/bayes.py:ChiCombiner"]}
{"id": "C49", "title": "The most significant tokens are used", "statement": "The Bayes classification uses the most significant tokens (those whose probability is furthest from 0.5) up to the limit.", "quantifier": "all token probability tables", "why_tests_cant": "All tables.", "anchors": ["oa/plugins/bayes.py:BayesPlugin.scan"]}
{"id": "C50", "title": "Auto-whitelist history", "statement": "After any sequence of checked messages the auto-whitelist entry of a sender holds exactly the number of that sender's messages and the sum of their pre-adjustment scores; other senders' entries are untouched.", "quantifier": "all message histories", "why_tests_cant": "Histories.", "anchors": ["oa/plugins/awl.py:AutoWhiteListPlugin.check_from_in_auto_whitelist", "oa/plugins/awl.py:AutoWhiteListPlugin.plugin_tags_sqlalch"]}
{"id": "C51", "title": "Auto-whitelist adjustment", "statement": "The auto-whitelist moves the score towards the sender's historical mean by the configured factor, leaves it alone for unknown senders, and with a factor between 0 and 1 the result lies between score and mean.", "quantifier": "all histories, scores and factors", "why_tests_cant": "All numbers.", "anchors": ["oa/plugins/awl.py:AutoWhiteListPlugin.plugin_tags_sqlalch"]}
{"id": "C52", "title": "Short-circuiting", "statement": "When a rule configured for short-circuiting matches, its score and the configured bonus are counted exactly once, no rule after it is evaluated, and a non-matching or unlisted rule is unaffected.", "quantifier": "all rulesets and short-circuit configurations", "why_tests_cant": "All positions and configurations.", "anchors": ["oa/plugins/short_circuit.py:ShortCircuitRule", "oa/plugins/short_circuit.py:ShortCircuit.finish_parsing_end"]}
{"id": "C53", "title": "Auto-learning decision", "statement": "A message is auto-learned as spam only if its matched rules' learning points reach the spam threshold with the header/body minimums and the earlier classifier does not strongly disagree; as ham only below the ham threshold; otherwise not at all.", "quantifier": "all rule results and thresholds", "why_tests_cant": "All numbers and rule sets.", "anchors": ["oa/plugins/auto_learn_threshold.py"]}
{"id": "C54", "title": "Verdicts depend only on the message", "statement": "The result of a sender-authentication check (SPF, DKIM, forged Received trail) for a message does not depend on which messages were checked before.", "quantifier": "all message histories", "why_tests_cant": "Histories.", "anchors": ["oa/plugins/spf.py", "oa/plugins/dkim.py", "oa/plugins/relay_eval.py"]}
{"id": "C55", "title": "Configuration file order", "statement": "Site .pre files come first, then default .pre and .cf files, then site .cf files and the user preferences last, each group sorted; each existing file of these directories with these extensions is listed, and no other.", "quantifier": "all directory contents", "why_tests_cant": "All listings.", "anchors": ["oa/config.py:get_config_files"]}
{"id": "C56", "title": "Header modifications", "statement": "The delivered message gets exactly the configured add/remove modifications for 'all' followed by those for its verdict, in order; other headers are untouched.", "quantifier": "all configurations and messages", "why_tests_cant": "All lists.", "anchors": ["oa/rules/ruleset.py:RuleSet._adjust_headers", "oa/rules/ruleset.py:RuleSet.get_adjusted_message", "oa/rules/ruleset.py:RuleSet._add_header_rule"]}
{"id": "C57", "title": "Definition order of meta rules", "statement": "Which meta rules survive loading does not depend on the order in which the rules are defined.", "quantifier": "all reference graphs between rules and all orders of their definitions", "why_tests_cant": "Orders and graphs are unbounded.", "anchors": ["oa/rules/meta.py:MetaRule.postparsing", "oa/rules/ruleset.py:RuleSet.call_postparsing"]}
{"id": "C58", "title": "Eval rules call the function they name", "statement": "A rule written eval:fn(a1,...,an) calls the registered function fn, and no other, with the values of exactly the written arguments in their order and the rule type as target; a rule naming an unregistered function is invalid.", "quantifier": "all function names, argument lists and surrounding white space", "why_tests_cant": "The name and the arguments range over all texts.", "anchors": ["oa/rules/eval_.py:EvalRule.__init__", "oa/rules/eval_.py:EvalRule.preprocess", "oa/rules/eval_.py:EvalRule.get_rule_kwargs"]}
{"id": "C59", "title": "DNS settings take effect", "statement": "The configured DNS servers are used, in order and with the configured port, and each DNS option (rotation, EDNS size, lifetime, timeout, test interval) reaches the resolver.", "quantifier": "all server lists and option values", "why_tests_cant": "Arbitrary lists and values; an option that silently does nothing passes every test that only checks that it is accepted.", "anchors": ["oa/context.py:GlobalContext._configure_dns", "oa/rules/ruleset.py:RuleSet.post_parsing", "oa/dns_interface.py:DNSInterface"]}
{"id": "C60", "title": "Templates show text verbatim and tags by value", "statement": "In report templates and added headers every tag (capital letters between underscores) is replaced by its value and all other text appears unchanged.", "quantifier": "all templates and tag values", "why_tests_cant": "All strings, including percent signs, quotes and adjacent underscores.", "anchors": ["oa/rules/ruleset.py:RuleSet._convert_tags", "oa/rules/ruleset.py:RuleSet._interpolate"]}
{"id": "C61", "title": "TESTSSCORES shows the scores of the matched rules", "statement": "The TESTSSCORES tag lists exactly the matched rules in evaluation order, each with the score it contributed, and 'none' if nothing matched.", "quantifier": "all rulesets and outcomes", "why_tests_cant": "Unbounded lists of rules; a rule of score 1 hides the difference between result and score.", "anchors": ["oa/rules/ruleset.py:RuleSet._interpolate"]}
{"id": "C62", "title": "User preferences refine the site configuration", "statement": "The rules used for a user with preferences are the site's configuration with the preferences applied on top: every rule definition, option and plugin that the preferences do not mention is as in the site configuration.", "quantifier": "all site configurations and preference files", "why_tests_cant": "All combinations of site files and preferences.", "anchors": ["oa/server.py:Server.get_user_ruleset", "oa/rules/parser.py:PADParser.__init__", "oa/rules/parser.py:PADParser.get_ruleset"]}
{"id": "C63", "title": "Bayes bands", "statement": "If the bounds of the Bayes rules (check_bayes) adjoin each other and cover 0 to 1, every message that gets a Bayes score hits exactly one of the rules, and no rule is hit without a score or when learning, Bayes or its rules are switched off.", "quantifier": "all scores and all increasing lists of bounds", "why_tests_cant": "All numbers and all lists of bounds.", "anchors": ["oa/plugins/bayes.py:BayesPlugin.check_bayes"]}
{"id": "C65", "title": "A DKIM verdict means a verified signature", "statement": "A message is reported to have a valid DKIM signature only if it carries a signature of one of its author domains that the DKIM library has verified, and every such message is reported.", "quantifier": "all messages, all outcomes of the verification including exceptions", "why_tests_cant": "Every outcome at every point of the check, and every order of rules.", "anchors": ["oa/plugins/dkim.py:DKIMPlugin.check_dkim_signature", "oa/plugins/dkim.py:DKIMPlugin.check_dkim_valid", "oa/plugins/dkim.py:DKIMPlugin.check_dkim_valid_author_sig"]}
{"id": "C67", "title": "Received-SPF headers", "statement": "If a message has Received-SPF headers, its SPF result is that of the first of them that is about the sender address, and its HELO result that of the first about the HELO name; no other result holds.", "quantifier": "all lists of headers, both header orders", "why_tests_cant": "All lists of headers.", "anchors": ["oa/plugins/spf.py:SpfPlugin.check_spf_received_header", "oa/plugins/spf.py:SpfPlugin.check_spf_header"]}
{"id": "C66", "title": "Address lists apply to whole addresses", "statement": "An address is on a white or black list exactly if an entry of the list stands for the whole address, with * for any text, ? for one character and nothing else special; an entry without @ is about the domain. A sender is on an SPF whitelist only if, besides, the message passes SPF.", "quantifier": "all lists, all addresses", "why_tests_cant": "All patterns against all addresses.", "anchors": ["oa/plugins/wlbl_eval.py:WLBLEvalPlugin.parse_list", "oa/plugins/wlbl_eval.py:WLBLEvalPlugin.check_address_in_list", "oa/plugins/spf.py:SpfPlugin.check_spf_whitelist"]}
{"id": "C68", "title": "Whitelists tied to relays", "statement": "A message is whitelisted by whitelist_from_rcvd exactly if an entry stands for an author address and the relay the message came from is in the entry's domain or network; it is called forged exactly if an entry stands for the address but the relay is another one, unless whitelist_allow_relays names the address.", "quantifier": "all lists, messages and relays", "why_tests_cant": "All lists against all messages and relays.", "anchors": ["oa/plugins/wlbl_eval.py:WLBLEvalPlugin.check_whitelist_rcvd", "oa/plugins/wlbl_eval.py:WLBLEvalPlugin.check_rcvd", "oa/plugins/wlbl_eval.py:WLBLEvalPlugin.check_forged_in_whitelist"]}
{"id": "C69", "title": "Sender domain and relay", "statement": "check_mailfrom_matches_rcvd is true exactly if the relay the message came from is in the base domain of the envelope sender.", "quantifier": "all senders, relays and lists of top-level domains", "why_tests_cant": "All names.", "anchors": ["oa/plugins/wlbl_eval.py:WLBLEvalPlugin.check_mailfrom_matches_rcvd", "oa/plugins/wlbl_eval.py:WLBLEvalPlugin.base_domain"]}
{"id": "C70", "title": "URI host lists", "statement": "A message is on a list of URI hosts exactly if one of its URIs has a host that is enlisted, or is below an enlisted one, and neither excluded nor taken off the list.", "quantifier": "all lists and all URIs", "why_tests_cant": "All lists against all URIs.", "anchors": ["oa/plugins/wlbl_eval.py:WLBLEvalPlugin.parse_list_uri", "oa/plugins/wlbl_eval.py:WLBLEvalPlugin.check_uri_host_listed"]}
{"id": "C71", "title": "The text that body rules see", "statement": "Every message can be parsed, and body rules see of it the decoded subjects followed by the text of every text part, in order, on one line and without HTML markup: words are shown as a reader sees them. Plugins get every part once, and the headers of all parts are available as MIME headers.", "quantifier": "all messages: subjects, part trees, charsets, payloads and HTML pages", "why_tests_cant": "Any number of parts, any charset and any markup; the text is assembled in a loop with several exits.", "anchors": ["oa/message.py:Message._parse_message", "oa/message.py:Message._iter_parts", "oa/message.py:Message.normalize_html_part", "oa/message.py:_ParseHTML"]}
{"id": "C72", "title": "The URIs that rules see", "statement": "The URIs of a message are exactly the links that occur in its text parts.", "quantifier": "all texts and all links in them", "why_tests_cant": "All positions and all lengths of links in all texts.", "anchors": ["oa/message.py:URL_RE", "oa/message.py:Message._parse_message"]}
{"id": "C73", "title": "Message identifiers", "statement": "Every message has an identifier: its own Message-ID without the angle brackets, or one derived from its date and the beginning of its body. Messages that differ in the identifier, or in date and beginning of the body, get different identifiers, and line-ending changes do not change it.", "quantifier": "all messages", "why_tests_cant": "All pairs of messages.", "anchors": ["oa/message.py:Message.msgid"]}
{"id": "C74", "title": "Receive date", "statement": "The receive date of a message is the date of its topmost Received header that has one, or the current time if there is none.", "quantifier": "all lists of Received headers", "why_tests_cant": "All lists of headers, well formed or not.", "anchors": ["oa/message.py:Message.receive_date"]}
{"id": "C75", "title": "Authenticated relays", "statement": "A relay counts as authenticated, and is therefore trusted and taken for internal, only if the server that received the message from it recorded that it authenticated. What the relay says about itself cannot make it so.", "quantifier": "all Received headers and configured networks", "why_tests_cant": "The text of a header is largely chosen by the sender.", "anchors": ["oa/received_parser.py:get_auth", "oa/message.py:Message._parse_relays"]}
{"id": "C76", "title": "Relay data from Received headers", "statement": "The relays of a message are those of its Received headers, in order. The address, name and envelope sender of a relay are those the receiving server recorded, not those the relay claims. No header makes a message unreadable.", "quantifier": "all lists of Received headers", "why_tests_cant": "All header texts, including forged and broken ones.", "anchors": ["oa/received_parser.py:ReceivedParser", "oa/received_parser.py:get_ip", "oa/received_parser.py:get_envfrom", "oa/message.py:Message._parse_relays"]}
{"id": "C77", "title": "Relay tags", "statement": "The tags RELAYSTRUSTED, RELAYSUNTRUSTED, RELAYSINTERNAL and RELAYSEXTERNAL describe each relay of their list, unambiguously and in order. The LASTEXTERNAL tags describe the relay that handed the message to the internal network.", "quantifier": "all lists of relays", "why_tests_cant": "All relay lists and all field values.", "anchors": ["oa/message.py:Message._parse_relays"]}
{"id": "C78", "title": "Rules about relays", "statement": "Each relay rule holds exactly of the messages its documentation describes: numeric HELO, HELO and address mismatch, all trusted, no relays, no reverse DNS name, sender domain absent from the relays, provider HELO without reverse DNS.", "quantifier": "all relay lists and sender addresses", "why_tests_cant": "All relay lists.", "anchors": ["oa/plugins/relay_eval.py:RelayEval"]}
{"id": "C79", "title": "Tags in patterns", "statement": "In the rules listed in replace_rules, and only there, every tag defined with replace_tag is replaced by the value of its last definition, with the values of the pattern's pre and post tags around it and of its inter tags between neighbouring tags. All other text stays. This holds for the configured brackets, and loading does not fail.", "quantifier": "all option lines, patterns and rule sets", "why_tests_cant": "All patterns and tag definitions.", "anchors": ["oa/plugins/replace_tags.py:ReplaceTags"]}
{"id": "C80", "title": "Only charsets foreign to the accepted locales are reported as far away", "statement": "With ok_locales set, a charset is accepted exactly if it is a universal one (ASCII, ISO-8859, the Unicode encodings, Windows code pages) or belongs to one of the listed locales, whatever the case and punctuation of its name; listing more locales only accepts more; a Subject or From header, or a text part, is reported exactly if one of its charsets is not accepted; without ok_locales nothing is reported.", "quantifier": "every charset name, every list of locales, every sequence of decoded header parts and of part charsets", "why_tests_cant": "The names of charsets are unbounded text with free punctuation and case, locales combine freely, and the reports quantify over all parts of a message", "anchors": ["oa/locales.py: charset_ok_for_locales, UNUSUAL_CHARSETS_FOR_LOCALE, ALWAYS_OK_CHARSETS_RE", "oa/plugins/header_eval.py: check_for_faraway_charset_in_headers", "oa/plugins/mime_eval.py: _update_faraway_charset"]}
{"id": "C81", "title": "A rule reads headers without changing the message", "statement": "The rule about illegal characters counts exactly the characters of a header that may not stand there unencoded (those beyond ASCII and control characters), compares the count and its share with the two bounds, and leaves the message as it found it, so that rules after it see the same headers.", "quantifier": "every message, every header name (and ALL), every pair of bounds, every order of rules", "why_tests_cant": "Whether a rule changes the message shows only in rules evaluated after it, and the count ranges over all texts", "anchors": ["oa/plugins/header_eval.py: check_illegal_chars"]}
{"id": "C82", "title": "Rules about recipients depend on the recipients only", "statement": "The rule about sorted recipients holds exactly if there are enough recipients and they are in order; the rule about similar recipients compares with its bounds the share of pairs of recipients that are alike; both give the same answer whatever rules were evaluated before.", "quantifier": "every list of recipients, every pair of bounds, every sequence of rules evaluated before on the same message", "why_tests_cant": "Values are kept between rules, so that answers could depend on order; the share ranges over all pairs of lists of any length", "anchors": ["oa/plugins/header_eval.py: _check_recipients, sorted_recipients, similar_recipients, _parse_rcpt"]}
{"id": "C83", "title": "Rules about dates measure the time between moments", "statement": "The rule about a shifted date holds exactly if the time between the moment named by Date and the nearest moment named by a Received header, in hours, lies within the bounds; the rule about age holds exactly if the age of the message in months lies within the bounds; neither raises, and both give the same answer whatever rules were evaluated before.", "quantifier": "every combination of date headers, every time zone, every pair of bounds, every sequence of rules evaluated before", "why_tests_cant": "Dates, offsets and bounds are unbounded, and values kept after an exception show only in later rules", "anchors": ["oa/plugins/header_eval.py: _parse_rfc822_date, _get_date_header_time, _get_received_header_times, _check_date_diff, check_for_shifted_date, _check_date_received, received_within_months"]}
{"id": "C84", "title": "Rules about MIME parts describe the parts of the message", "statement": "The numbers of HTML, plain, base64 and quoted-printable parts a rule sees are those of the message; the ratios and lengths derived from them are the ratios and lengths their names say; a rule about long lines, illegal characters, missing boundaries, alternatives or cut headers holds exactly if the message has such a thing; no message makes the rules raise.", "quantifier": "every list of parts, of any types, encodings, charsets and texts", "why_tests_cant": "The statistics add up over parts of arbitrary number and text; a counter that is never increased or a line length summed over parts shows only for particular combinations", "anchors": ["oa/plugins/mime_eval.py: MIMEEval.extract_metadata, _update_mime_text_info, _update_base64_text_info, _update_quopri_stats, _update_mime_html_info, _update_mime_ma_non_text, parsed_metadata, check_*"]}
{"id": "C85", "title": "DNS list rules hold exactly for listed senders, and ask about nobody else", "statement": "A rule about a DNS list holds only if an address of the message that is not trusted (or the sender's domain, for the rules about domains) has a record in the list that passes the rule's subtest, and always then if the resolver answers. The name asked for is the address backwards under the list. No other address is ever sent to a list, nothing is asked if the checks are switched off, and a rule with an accreditor asks nothing for messages that do not name it. The rule about the sender's domain holds exactly if the domain has neither addresses nor mail servers.", "quantifier": "every message, every set of trusted networks, every resolver, every list, subtest and accreditor", "why_tests_cant": "Resolvers, addresses and lists are unbounded, and that no other query is made is a statement about all executions", "anchors": ["oa/plugins/dns_eval.py: check_rbl, check_rbl_txt, check_rbl_envfrom, check_rbl_from_domain, check_rbl_accreditor, check_dns_sender, _check_rbl, _check_rbl_addr", "oa/dns_interface.py: reverse_ip"]}
{"id": "C86", "title": "Subtests of a zone select records of the list the zone was defined with", "statement": "check_rbl_sub holds exactly if an address that is not trusted has, in the list its zone was defined with, a record that passes the mask, be it a number or an address; a zone is found under the name it was defined with; a rule with too few arguments affects only itself.", "quantifier": "every configuration of zones, every mask, every resolver and message", "why_tests_cant": "The zones result from the whole configuration, and masks and records range over all addresses", "anchors": ["oa/plugins/dns_eval.py: check_rbl_sub, _check_multi_rbl, finish_parsing_end"]}
{"id": "C87", "title": "Every link of a message is known, with what it says", "statement": "When the links of a message are collected, there is an entry for an address and a tag exactly if an a or link tag of the HTML has it as href or src, and an entry of type parsed exactly for the addresses found otherwise that are not in the HTML; every entry gives the address itself, its scheme, host and readable form; the rule about addresses that are too long holds exactly if the HTML has one.", "quantifier": "every sequence of tags, attributes and texts, every list of addresses, every URL library", "why_tests_cant": "Repeated, nested and unclosed tags combine without bound, and entries for the same address are merged", "anchors": ["oa/html_parser.py: HTML.handle_starttag, HTML.handle_endtag, HTML.handle_data, parse_link, parsed_metadata", "oa/plugins/uri_eval.py: check_uri_truncated"]}
{"id": "C88", "title": "The text of a link is what is between its tags, and no HTML makes a message unreadable", "statement": "The texts recorded for an address are those inside of the links to it, in order, and no other; no HTML and no address in the text makes collecting the links raise.", "quantifier": "every sequence of tags, attributes and texts", "why_tests_cant": "Tags nest without bound, and what is recorded depends on the tags before", "anchors": ["oa/html_parser.py: HTML.handle_starttag, HTML.handle_endtag, HTML.handle_data, parsed_metadata"]}
{"id": "C89", "title": "A uri_detail rule holds exactly if one link passes all its checks", "statement": "The checks of a uri_detail rule are the keys, operators and expressions, with flags, of its configuration; the rule holds exactly if one link of the message passes all of them, and has the score, description, priority and flags the configuration gives it.", "quantifier": "every rule, every set of links, every regular expression library", "why_tests_cant": "Rules, links and expressions are unbounded; that a check can never pass is a statement about all messages", "anchors": ["oa/plugins/uri_detail.py: URIDetailRule.check_single_item, URIDetailRule.match, URIDetailRule.get_rule_kwargs, URI_DRREG"]}
{"id": "C90", "title": "The rule about redirections follows them to the end", "statement": "The rule about redirections always ends, and holds exactly if an address of the message leads, possibly through redirections within one host, to one that redirects to another host.", "quantifier": "every list of addresses, every nesting of redirections", "why_tests_cant": "Redirections nest without bound; termination is not a property of a run", "anchors": ["oa/plugins/uri_eval.py: check_for_http_redirector, HTTP_REDIR"]}
{"id": "C91", "title": "The rule about links that pretend to lead elsewhere considers every link", "statement": "The rule holds exactly if some link leads to a host that is a number while its text shows a secure address with a named host.", "quantifier": "every set of links and texts", "why_tests_cant": "That other links do not matter ranges over all messages", "anchors": ["oa/plugins/uri_eval.py: check_https_ip_mismatch, extract_url_from_text"]}
{"id": "C92", "title": "Free mail addresses are recognised by their domain", "statement": "An address is taken for free mail exactly if neither it nor its domain is excepted and its domain is listed or described by a wildcard, regardless of case; a rule about senders or a header holds exactly if one of the addresses is free mail and matches its expression, whatever other addresses there are; an invalid domain in the configuration affects only itself, and the same in every message.", "quantifier": "every configuration of domains, wildcards and exceptions, every list of addresses", "why_tests_cant": "Configurations and addresses are unbounded, and that other addresses have no influence is a statement about all lists", "anchors": ["oa/plugins/free_mail.py: FreeMail.check_start, FreeMail._is_freemail, FreeMail.check_freemail_from, FreeMail.check_freemail_header"]}
{"id": "C93", "title": "Rules about free mail in the body depend only on the set of addresses in it", "statement": "A rule about free mail in the body holds exactly if the body has neither too many addresses nor too many free mail addresses, counted once each, and one of these matches the expression of the rule; neither the order in which the addresses are kept, nor how the message is cut into parts, nor rules evaluated before, nor messages checked before change this.", "quantifier": "every message, every cut into parts, every order, every history of messages and rules", "why_tests_cant": "Order and histories are unbounded, and the order of a set differs from run to run", "anchors": ["oa/plugins/free_mail.py: FreeMail.check_start, FreeMail.extract_metadata, FreeMail._parse_body, FreeMail.check_freemail_body"]}
{"id": "C94", "title": "The rule about the address to reply to compares free mail addresses", "statement": "With the option replyto, the rule holds exactly if the sender of the envelope does not look like a list, and the address to reply to is free mail and differs from a free mail address in From or in the body; with the option reply, also if there is no address to reply to and From is free mail that differs from one in the body.", "quantifier": "every message, every history of rules and messages, every option", "why_tests_cant": "Messages and histories are unbounded", "anchors": ["oa/plugins/free_mail.py: FreeMail.check_freemail_replyto"]}
{"id": "C95", "title": "The difference between plain and HTML alternatives measures missing words", "statement": "The rule about alternatives compares exactly the words of the plain and HTML parts that lie directly in a multipart/alternative, wherever that is in the message: the difference is between 0 and 100 percent, 0 if both have the same words equally often, 100 if they share none, and otherwise the percentage of words of the plain text that the HTML does not have at least as often; the rule holds exactly if it lies between the bounds.", "quantifier": "every tree of parts, every text, all bounds", "why_tests_cant": "Trees and texts are unbounded", "anchors": ["oa/plugins/body_eval.py: BodyEval.extract_metadata", "oa/plugins/body_eval.py: BodyEval.parsed_metadata", "oa/plugins/body_eval.py: BodyEval.multipart_alternative_difference"]}
{"id": "C96", "title": "The rule about the ratio of different words counts every word once", "statement": "The rule holds exactly if the HTML alternatives have at least the number given of different words, and any, and the plain ones more different words than the ratio given times theirs; repetitions do not count.", "quantifier": "every tree of parts, every text, all ratios and minima", "why_tests_cant": "Trees and texts are unbounded", "anchors": ["oa/plugins/body_eval.py: BodyEval.extract_metadata", "oa/plugins/body_eval.py: BodyEval.multipart_alternative_difference_count"]}
{"id": "C97", "title": "The rule about blank lines compares their number with that of all lines", "statement": "The rule holds exactly if the body has at least the number given of lines, and any, and the percentage of blank lines lies between the bounds.", "quantifier": "every text, all bounds and minima", "why_tests_cant": "Texts are unbounded", "anchors": ["oa/plugins/body_eval.py: BodyEval.parsed_metadata", "oa/plugins/body_eval.py: BodyEval.check_blank_line_ratio"]}
{"id": "C98", "title": "The rule about white space compares the numbers of characters", "statement": "The rule holds exactly if the text has characters other than white space, and the number of characters of white space in percent of these lies between the bounds, whether these are written as numbers or in quotes.", "quantifier": "every text, all bounds", "why_tests_cant": "Texts are unbounded", "anchors": ["oa/plugins/body_eval.py: BodyEval.tvd_vertical_words"]}
{"id": "C99", "title": "Saving a ruleset changes nothing, and a restored one is the same", "statement": "Saving a context (compiling the rules) leaves the running context as it was, so that it can go on being used and be saved again; and the context restored from what was saved has the same plugins in the same order, the same eval rules and the same settings.", "quantifier": "every history of loading, unloading and configuring plugins, from installed modules and from files, and every result of importing them again", "why_tests_cant": "The plugins, the rules they share and the settings form an unbounded space, and the effects on the running context show only for certain mixtures of plugins.", "anchors": ["oa/context.py: _Context.__getstate__, __setstate__, GlobalContext.load_plugin", "scripts/compile.py: serialize", "scripts/match.py: main"]}
{"id": "C100", "title": "Each message given to the match script is processed once, and counted", "statement": "The match script processes every message in the files and directories it is given exactly once, in order, in the way its options ask for; a message or file that cannot be processed does not prevent the others from being processed; and the number of messages examined that it prints is the number of messages it examined.", "quantifier": "every list of files and directories, every set of options, and every pattern of unreadable files and failing messages", "why_tests_cant": "The lists of paths and failures are unbounded.", "anchors": ["scripts/match.py: main, MessageList"]}
{"id": "C101", "title": "The rule about missing recipients is right", "statement": "check_for_missing_to_header holds for a message exactly if the message has no To header and no Apparently-To header, in whatever case their names are written.", "quantifier": "every message, as a list of headers", "why_tests_cant": "The headers of a message are unbounded and names can be written in any case.", "anchors": ["oa/plugins/header_eval.py: check_for_missing_to_header"]}
{"id": "C102", "title": "The number of headers is counted", "statement": "A rule that asks for between MIN and MAX headers of a name (check_header_count_range) holds exactly if the number of headers of that name in the message is in that range.", "quantifier": "every message and every range", "why_tests_cant": "Counts and repeated values are unbounded.", "anchors": ["oa/plugins/header_eval.py: check_header_count_range"]}
{"id": "C103", "title": "The rule about subjects in capital letters is right", "statement": "subject_is_all_caps holds exactly if a subject, without the marks of replies and forwarded messages it begins with, has at least ten characters, more than one word, some capital letter and no small letters.", "quantifier": "every list of subjects", "why_tests_cant": "Subjects are unbounded texts; which marks and white space they begin with matters.", "anchors": ["oa/plugins/header_eval.py: subject_is_all_caps"]}
{"id": "C104", "title": "The rules about recipients in subjects are right", "statement": "check_for_to_in_subject holds for 'address' exactly if the address of a recipient stands in the subject, in whatever case; for 'user' exactly if the subject speaks to the user of one of the addresses: alone, after the mark of a reply, or with a punctuation mark.", "quantifier": "every list of recipients and every subject", "why_tests_cant": "Subjects and addresses are unbounded texts.", "anchors": ["oa/plugins/header_eval.py: check_for_to_in_subject"]}
{"id": "C105", "title": "The senders of message and envelope are compared", "statement": "check_equal_from_domains holds exactly if the domain of the envelope sender is known and differs from the domain in the From header; check_for_matching_env_and_hdr_from holds exactly if the sender of the envelope is known and is the one in the From header.", "quantifier": "every list of From addresses and every list of relays", "why_tests_cant": "Addresses can contain one another in any way.", "anchors": ["oa/plugins/header_eval.py: check_equal_from_domains, check_for_matching_env_and_hdr_from"]}
{"id": "C106", "title": "Messages forged to look like a provider's are found", "statement": "A rule about forged messages of a provider (eudoramail, yahoo, juno) holds exactly if the From address is one of that provider's and the headers are not those its servers write.", "quantifier": "every list of From addresses, relays, Received headers and results of searching them", "why_tests_cant": "Headers and relays are unbounded lists of texts that a sender chooses.", "anchors": ["oa/plugins/header_eval.py: check_for_forged_eudoramail_received_headers, check_for_forged_yahoo_received_headers, check_for_forged_juno_received_headers, gated_through_received_hdr_remover"]}
{"id": "C107", "title": "Rules about images count what is attached", "statement": "image_named holds exactly if an attached image has the name; image_count and pixel_coverage hold exactly if the number of attached images of the type, and the sum of their areas, lie in the range (both ends included; no upper end means none); image_size_exact and image_size_range hold exactly if an attached image of the type has the size, or lies in the given ranges of heights and widths; image_to_text_ratio holds exactly if the length of the text per pixel of images lies in the range.", "quantifier": "every list of parts, every image library, every range", "why_tests_cant": "Numbers, sizes and types of attached images are unbounded and the statistics are accumulated over all of them.", "anchors": ["oa/plugins/image_info.py: ImageInfoPlugin.extract_metadata, image_named, image_count, pixel_coverage, image_size_exact, image_size_range, image_to_text_ratio"]}
{"id": "C108", "title": "Rules about PDF documents count what is attached", "statement": "pdf_count, pdf_image_count and pdf_pixel_coverage hold exactly if the number of attached PDF documents, of the images on their pages, and the sum of their areas, lie in the range; pdf_named, pdf_match_md5, pdf_is_encrypted, pdf_match_details and the rules with regular expressions hold exactly if one of the attached documents has the name, the digest, is encrypted, or has a detail that matches.", "quantifier": "every list of parts, every reader of documents, every range", "why_tests_cant": "Documents, pages and objects are unbounded and the statistics are accumulated over all of them.", "anchors": ["oa/plugins/pdf_info.py: PDFInfoPlugin.extract_metadata, pdf_count, pdf_image_count, pdf_pixel_coverage, pdf_named, pdf_name_regex, pdf_match_md5, pdf_match_fuzzy_md5, pdf_match_details, pdf_is_encrypted, pdf_is_empty_body"]}
{"id": "C109", "title": "Unwanted languages are found", "statement": "check_language holds exactly if ok_languages has been given, does not contain all, no more than textcat_max_languages languages are found with more than textcat_acceptable_prob, and one of these is not among the words of the last ok_languages line; the tag LANGUAGES lists the languages found unless there are too many.", "quantifier": "every sequence of ok_languages lines, every result of language detection, every limit and probability", "why_tests_cant": "Results of detection and option lines are unbounded lists.", "anchors": ["oa/plugins/textcat.py: TextCatPlugin.check_language, set_list_option"]}
{"id": "C110", "title": "Subjects are white- and blacklisted", "statement": "check_subject_in_whitelist (check_subject_in_blacklist) holds exactly if the message has a subject and an expression given to this configuration with whitelist_subject (blacklist_subject) matches it.", "quantifier": "every sequence of option lines given to any number of configurations in a process, every subject, every matcher", "why_tests_cant": "Sharing between configurations depends on the history of the process.", "anchors": ["oa/plugins/whitelist_subject.py: WhiteListSubjectPlugin.parse_config, set_append_option, _check_subject"]}
{"id": "C111", "title": "Text in capital letters is found", "statement": "check_for_uppercase holds exactly if the paragraphs of more than one word have at least 200 characters in all and the percentage of capital letters among their letters and digits is above the lower bound and not above the upper one.", "quantifier": "every text, every pair of bounds, every table of upper case letters", "why_tests_cant": "Texts are unbounded and the count depends on every character and on the ones before it.", "anchors": ["oa/plugins/mime_eval.py: MIMEEval.check_for_uppercase"]}
{"id": "C112", "title": "Pyzor finds what any server lists", "statement": "A message is found by the Pyzor rule exactly if the plugin is on and some configured server reports it at least pyzor_max times without it being whitelisted there; the tags tell the last answer; servers are asked in order up to the first that decides.", "quantifier": "all lists of servers, all answers including failures, all limits", "why_tests_cant": "The servers are remote; tests use one answer, while the property ranges over every combination of answers and failures.", "anchors": ["oa/plugins/pyzor.py: check_pyzor"]}
{"id": "C113", "title": "Pyzor reports reach every server", "statement": "Reporting or revoking a message tells every configured server once, with the digest of the message and the class given; nothing is told if the plugin is off.", "quantifier": "all lists of servers, all patterns of failure, a digest stored by a check or not", "why_tests_cant": "Failures of single servers are not exercised by tests with mocks of one server.", "anchors": ["oa/plugins/pyzor.py: _pyzor_report, plugin_report, plugin_revoke"]}
{"id": "C114", "title": "Razor is asked once and its answer counts for all rules", "statement": "For a message, the program is run at most once, and every rule that asks gets the answer of that run: the message is listed exactly if the program ends with code 0.", "quantifier": "all ways a run of the program can end, any number of rules asking", "why_tests_cant": "Needs all sequences of checks of one message; tests check once.", "anchors": ["oa/plugins/razor2.py: check_razor2"]}
{"id": "C115", "title": "Countries of relays", "statement": "The tag RELAYCOUNTRY and the header X-Relay-Countries name the countries of the relays in order, ** for private addresses and XX for unknown ones, and rules about that header see this and nothing the sender wrote.", "quantifier": "all messages, lists of relays and databases, both modes of header access", "why_tests_cant": "Ranges over all messages including those that carry such a header themselves.", "anchors": ["oa/plugins/relay_country.py: parsed_metadata, get_country", "oa/message.py: get_header_ips, get_decoded_header"]}
{"id": "C116", "title": "Reports to SpamCop", "statement": "A reported message is sent to SpamCop if and only if reporting there is not disabled, an address to send to is configured and the message is not older than two days; the report carries the message, cut at the configured size.", "quantifier": "all settings, messages, Received headers and times", "why_tests_cant": "Depends on the clock, on all forms of Received headers and on all settings.", "anchors": ["oa/plugins/spam_cop.py: plugin_report, _spamcop_report, get_mail_date"]}
{"id": "C117", "title": "Databases of plugins", "statement": "Settings in the form of SpamAssassin name the same database, host, port, user and password for the library that is used; a URL is used as it is.", "quantifier": "all settings, users and passwords, with SQLAlchemy and without", "why_tests_cant": "Ranges over all texts, including those with the separators used in URLs.", "anchors": ["oa/plugins/base.py: dbi_to_mysql, dbi_to_alchemy, finish_parsing_end"]}
{"id": "C118", "title": "The address that the receiving server saw", "statement": "The address of a relay is the one that the receiving server has written in brackets for the connection; no name the client has chosen can take its place.", "quantifier": "all Received headers, public addresses, and texts around the address", "why_tests_cant": "Clients choose the name they give themselves, so all texts can stand beside the address; tests take a few.", "anchors": ["oa/received_parser.py: ReceivedParser.get_ip, IP_ADDRESS, IP_PRIVATE"]}
{"id": "C119", "title": "No relay can hide itself", "statement": "The header of a server that received the message over the network is never dropped, whatever the client calls itself.", "quantifier": "all Received headers, names of clients and names of addresses", "why_tests_cant": "Fifteen expressions decide whether a header is dropped, and each is tested against all possible texts.", "anchors": ["oa/received_parser.py: ReceivedParser.check_for_skip, UNKNOWN_RE, WITH_LOCAL_RE"]}
{"id": "C120", "title": "The fields of a line of a Postfix server", "statement": "From the header a Postfix server writes, the name the client gives itself, the name and the address of the client, the name of the server, the number of the message and the authentication are read as they stand there.", "quantifier": "all names of hosts, addresses, protocols, numbers and receivers, and all ways to fold the header", "why_tests_cant": "Some twenty expressions compete for the same header; that none of the wrong ones matches has to hold for all names.", "anchors": ["oa/received_parser.py: ReceivedParser._parse_message, get_rdns, get_helo, get_by, get_ident, get_id, get_envfrom, get_auth"]}
{"id": "C121", "title": "The name of the receiving server", "statement": "The name of the server that wrote a header is the word behind the first ` by `.", "quantifier": "all headers", "why_tests_cant": "Ranges over all texts before and behind that word.", "anchors": ["oa/received_parser.py: ReceivedParser.get_by, BY_RE, RDNS_RE3"]}
{"id": "C122", "title": "The number of the message at a server", "statement": "The number of the message at the server is the word behind the word `id`.", "quantifier": "all headers", "why_tests_cant": "Ranges over all texts before and behind that word.", "anchors": ["oa/received_parser.py: ReceivedParser.get_id, ID_RE"]}
{"id": "C123", "title": "What an entry of a network option stands for", "statement": "An entry `[!]ADDRESS[/LENGTH]` of the network options, with or without brackets, with all octets or with the leading ones and a dot, in IPv4 or in IPv6, long or shortened, stands for exactly the addresses that agree with it in the given number of bits: LENGTH if given, else eight times the number of octets, or all bits of an IPv6 address. `!` excludes them.", "quantifier": "all entries written as documented, and all addresses", "why_tests_cant": "There are as many entries and addresses as numbers of 32 and 128 bits; the boundary of a prefix has to be right at each length.", "anchors": ["oa/networks.py: _NETWORK_RE, _format_network_str, NetworkList._extract_network, NetworkListBase.__contains__"]}
{"id": "C124", "title": "Wrong entries of network options", "statement": "An entry of a network option that names no network does not disturb the lookups of addresses.", "quantifier": "all entries and addresses", "why_tests_cant": "Ranges over all wrong entries, other entries and addresses.", "anchors": ["oa/networks.py: NetworkList._extract_network, NetworkListBase.__contains__", "oa/context.py: GlobalContext._add_networks"]}
{"id": "C125", "title": "Trusted and internal addresses as configured", "statement": "With networks written as documented, an address is trusted exactly if it is a loopback address or the first entry about it includes it; the same for internal addresses if internal networks are given, else the trusted ones serve. No lookup fails.", "quantifier": "all lists of documented entries and all addresses", "why_tests_cant": "Ranges over all lists of entries and all addresses; depends on the order of the entries.", "anchors": ["oa/networks.py: NetworkList, NetworkListBase, TrustedNetworks, InternalNetworks", "docs/configuration.rst: trusted_networks, internal_networks"]}
{"id": "C126", "title": "Making tokens ends", "statement": "Cutting a message into tokens, for learning or for scoring with the Bayes classifier, ends for every message.", "quantifier": "all messages", "why_tests_cant": "A message of an unforeseen form makes the loop over domain parts run for ever; tests only show messages for which it ends.", "anchors": ["oa/plugins/bayes.py: BayesPlugin.tokenise, _tokenise_line"]}
{"id": "C127", "title": "Words become tokens", "statement": "Every word of the subject, of the plain texts and of the ordinary headers of a message, unless it is on the stop list, shorter than three characters or longer than fifteen, is one of the tokens, as written and in small letters, and a longer word is represented by its beginning; a token is counted once, and every token of the text comes from a word in it.", "quantifier": "all messages and words", "why_tests_cant": "Ranges over all texts, places of words in them and alphabets; depends on expressions, trimming and the splitting of lines.", "anchors": ["oa/plugins/bayes.py: BayesPlugin.tokenise, _tokenise_line, get_body_text_array_common, _tokenise_headers"]}
{"id": "C128", "title": "Words that say nothing", "statement": "Words of the documented stop list are not tokens, however they are written.", "quantifier": "all messages and all words of the list", "why_tests_cant": "Ranges over all messages and spellings.", "anchors": ["oa/plugins/bayes.py: STOP_WORDS, BayesPlugin._tokenise_line"]}
{"id": "C129", "title": "Making tokens does not fail", "statement": "Cutting a message into tokens gives a set of tokens for every message and never raises an exception.", "quantifier": "all messages", "why_tests_cant": "A word of an unforeseen form is enough to make it fail.", "anchors": ["oa/plugins/bayes.py: BayesPlugin.tokenise, _tokenise_line, _tokenise_mail_addrs"]}
{"id": "C130", "title": "Addresses are learned", "statement": "The users and domains of the addresses in the headers for senders and recipients are among the tokens, so that messages that differ only there can be told apart.", "quantifier": "all messages and addresses", "why_tests_cant": "Ranges over all ways to write addresses.", "anchors": ["oa/plugins/bayes.py: BayesPlugin._pre_chew_addr_header, find_all_addrs_in_line, _tokenise_mail_addrs"]}
{"id": "C131", "title": "Same message, same tokens", "statement": "The tokens depend on the message and the settings only, not on the order in which the interpreter enumerates the names of the headers.", "quantifier": "all messages and all orders of enumeration", "why_tests_cant": "The order of a set of strings changes from run to run of the interpreter; a test sees one of them.", "anchors": ["oa/plugins/bayes.py: BayesPlugin._tokenise_headers, _parse_special_header"]}
{"id": "C132", "title": "Headers that are not learned", "statement": "Headers on the built-in list, headers that the administrator wants ignored and the results of an earlier scan have no influence on the tokens; of signatures only the presence counts.", "quantifier": "all messages, header names and values", "why_tests_cant": "Ranges over all headers, values and settings.", "anchors": ["oa/plugins/bayes.py: IGNORED_HEADERS, MARK_PRESENCE_ONLY_HEADERS, BayesPlugin._tokenise_headers", "docs: bayes_ignore_header"]}
{"id": "C133", "title": "DKIM whitelists", "statement": "A message is on a DKIM whitelist exactly if it has a verified signature, an entry that has not been removed stands for the whole address of an author (* for any text, other characters for themselves), and the signature is of one of the domains the entry names, if it names any. All entries of all lines of the option count.", "quantifier": "all lists of entries, all removals, all messages and verification results", "why_tests_cant": "Ranges over all patterns, addresses and domains; tests use a few well-formed ones.", "anchors": ["oa/plugins/dkim.py: DKIMPlugin.check_for_dkim_whitelist_from, check_for_def_dkim_whitelist_from, parse_input, _check_dkim_whitelist", "docs/pad.plugins.dkim.rst"]}
{"id": "C134", "title": "Signing practices", "statement": "A rule about signing practices holds exactly for messages without a verified signature that have an author domain (the named one, if the rule names one) for which the overrides give the practice of the rule; with * for any author domain. Earlier messages have no influence.", "quantifier": "all overrides, letters, named domains and messages", "why_tests_cant": "Ranges over all lists of overrides and domains and over the messages seen before.", "anchors": ["oa/plugins/dkim.py: DKIMPlugin.check_dkim_adsp, parse_input", "docs/pad.plugins.dkim.rst: adsp_override"]}
{"id": "C135", "title": "Signatures of named domains", "statement": "A rule about signatures that names domains holds exactly if the signature has the quality the rule asks for and is of one of these domains.", "quantifier": "all lists of names, all messages and verification results", "why_tests_cant": "Ranges over all names and domains, including those that contain one another.", "anchors": ["oa/plugins/dkim.py: DKIMPlugin.check_dkim_signed, check_dkim_valid, check_dkim_valid_author_sig, _check_dkim_signed_by"]}
{"id": "C136", "title": "Fake relays", "statement": "The rule about AOL's relays holds exactly if some Received header names such a relay and has neither the mark of AOL's software nor one of its numbers; the rule about the gateway GW05 holds exactly if some Received header begins with a line of its form.", "quantifier": "all lists of Received headers", "why_tests_cant": "Ranges over all texts of headers; tests use a few that were written for the expressions.", "anchors": ["oa/plugins/header_eval.py: HeaderEval.check_for_fake_aol_relay_in_rcvd, check_for_forged_gw05_received_headers"]}
{"id": "C137", "title": "Unresolved templates", "statement": "The rule holds exactly if a header of the message, other than those that may have anything in them (recipients, senders, subjects, references and message ids), has a placeholder that was not filled in: % and two capitals, or a capital with _ or -.", "quantifier": "all messages", "why_tests_cant": "Ranges over all texts of headers; tests use a few that were written for the expressions.", "anchors": ["oa/plugins/header_eval.py: HeaderEval.check_unresolved_template"]}
{"id": "C138", "title": "Ratware", "statement": "The rule about names holds exactly if the Message-ID has 28 capitals, a dot and the address of the sender, whose name is in quotes. The rule about envelopes holds exactly if the sender of the envelope repeats the address of the recipient backwards (domain, dot, user) in front of the @ and has not been rewritten, for recipients in any domain under a known ending.", "quantifier": "all Message-IDs, senders and recipients, all lists of endings", "why_tests_cant": "Ranges over all texts of headers; tests use a few that were written for the expressions.", "anchors": ["oa/plugins/header_eval.py: HeaderEval.check_ratware_name_id, check_ratware_envelope_from, is_domain_valid, check_in_TL_TLDS"]}
{"id": "C139", "title": "Forged Hotmail headers", "statement": "A message whose last relay claims to be of Hotmail is found to be forged unless it has the form of Hotmail's own mail, of MSN's groups, or has had its headers removed; one whose sender is in hotmail.com and whose last relay is not is found to lack Hotmail's header. A message to a group of MSN is genuine exactly if it comes from a server of the groups and its Message-ID and sender are those of the group.", "quantifier": "all messages", "why_tests_cant": "Ranges over all texts of headers; tests use a few that were written for the expressions.", "anchors": ["oa/plugins/header_eval.py: HeaderEval.check_for_forged_hotmail_received_headers, check_for_no_hotmail_received_headers, check_for_msn_groups_headers"]}
{"id": "C140", "title": "Times in Message-IDs", "statement": "The rule about Outlook holds exactly if the Message-ID is like those of Outlook and the time in it is neither near the one in Date nor near the one in the first Received. A Message-ID is found not usable exactly if the message is from a list, has had its headers removed, or has been through one of two gateways.", "quantifier": "all messages, all ways to read dates", "why_tests_cant": "Ranges over all texts of headers; tests use a few that were written for the expressions.", "anchors": ["oa/plugins/header_eval.py: HeaderEval.check_outlook_message_id, check_messageid_not_usable"]}
{"id": "C141", "title": "From rule files to the score of a message", "statement": "Loading rule files and checking a message evaluates exactly the rules that the files define with a score other than 0, whose names do not begin with two underscores and whose references can be resolved, each once, higher priorities first and otherwise in the order of mention; the last line about a rule decides; each rule's result is what its definition says about the message, a combination's result is the value of its expression over the results of the rules it names; and the score is the sum of the scores of the rules that do not give 0. All this is determined by the text of the files, the options and the message.", "quantifier": "all rule files with includes, all options, all messages, all regular expression libraries, all earlier accesses to headers", "why_tests_cant": "It ranges over all sets of files and all messages at once, and composes parser, builder, resolver, header rules, expressions and the loop; tests check each stage on a few inputs.", "anchors": ["oa/rules/parser.py: PADParser.parse_file, get_ruleset, parse_pad_rules", "oa/rules/ruleset.py: RuleSet.match, add_rule, post_parsing, call_postparsing", "oa/rules/meta.py: MetaRule", "oa/rules/header.py, body.py, full.py, uri.py, base.py"]}
{"id": "C142", "title": "Wrapped spam keeps the original", "statement": "When a message is spam and report_safe is not 0, the message that PROCESS delivers has exactly two parts, which every mail reader finds whatever lines the message and the report contain: the report, and an attachment marked as a message (as plain text with report_safe 2) that holds the received message character for character. Only headers whose names begin with X-Spam- can differ from the exchanged sender, recipient, subject and date; HEADERS gives the headers of the message that PROCESS gives.", "quantifier": "all messages, reports, settings of report_safe, header modifications and random boundaries", "why_tests_cant": "A message can contain any line, including one that equals the boundary of the wrapping message; a test has a few messages and one random number.", "anchors": ["oa/rules/ruleset.py: get_adjusted_message, _get_bounce_message, _adjust_headers", "oa/protocol/process.py"]}
{"id": "C143", "title": "The connection of the classifier", "statement": "After a message has been checked or learned, the Bayes plugin has no connection to its database open, whatever happened to earlier messages of the process.", "quantifier": "all histories of scans and learning in a process, with any database, including failures", "why_tests_cant": "Needs histories in which a failure is followed by other messages; tests use one message and a mock store.", "anchors": ["oa/plugins/bayes.py: scan, _skip_scan, learner_is_scan_available, learn_message, forget_message", "oa/db/bayes/mysql.py: untie_db, tie_db_writeable", "oa/db/bayes/sqlalchemy.py: untie_db, tie_db_writeable"]}
{"id": "C144", "title": "Addresses the classifier ignores", "statement": "Messages whose senders match an entry of bayes_ignore_from, or whose recipients match one of bayes_ignore_to, are not scored by the classifier; all others are. Entries are addresses with the wildcards * and ?.", "quantifier": "all lists, addresses and messages", "why_tests_cant": "Entries and addresses are arbitrary texts; the meaning of an entry for all addresses is not settled by examples.", "anchors": ["oa/plugins/bayes.py: ignore_message, check_address_in_list, parse_list, check_bayes", "oa/conf.py: set_list_option"]}
{"id": "C145", "title": "Tags of the classifier", "statement": "At the end of every check the tags of the Bayes plugin are there; the numbers of new, hammy, neutral and spammy tokens add up to the number of tokens of the message, none is negative, and the lists show at most five tokens. Trouble with the database does not stop the check of the message.", "quantifier": "all messages, databases (including ones that can only be read) and sequences of Bayes rules", "why_tests_cant": "The numbers come from several scans of one message against a database that can change or fail between them.", "anchors": ["oa/plugins/bayes.py: check_start, scan, check_end, bayes_report_make_list", "oa/rules/ruleset.py: match"]}
{"id": "C146", "title": "A number at the end of a subject", "statement": "check_for_unique_subject_id holds exactly for messages whose subject ends in an identifier that nothing announces: a number after a word like order, invoice or number, with at most six characters between them, is not reported, wherever else such words are, and the spelling of the identifier never stops the check.", "quantifier": "all subjects", "why_tests_cant": "The subject chooses which of eleven expressions matches and is then itself made a part of a twelfth; examples do not settle which subjects break it.", "anchors": ["oa/plugins/header_eval.py: check_for_unique_subject_id", "oa/regex.py: Regex"]}
{"id": "C147", "title": "The rule about a missing line between headers and body holds exactly for messages that lack it", "statement": "`check_msg_parse_flags` with `missing_mime_head_body_separator` holds if and only if the first line of the message that is neither a header field, nor the continuation of one, nor a mail folder's `From ` line is not empty; a message of nothing but headers is not flagged; `missing_mime_headers` holds if and only if the message or one of its parts has no headers, `mime_epilogue_exists` if and only if text follows the last part, and no other word is a flag.", "quantifier": "every message, with lines ended in any mixture of styles, and every list of headers", "why_tests_cant": "Where the headers end depends on every line and every character before it: which characters a name may have, which end a line and which count as white space cannot be settled by a few messages", "anchors": ["oa/message.py: Message._parse_message, Message.translate_line_breaks", "oa/plugins/mime_eval.py: MIMEEval.check_msg_parse_flags"]}
{"id": "C148", "title": "Messages share an entry of the auto-whitelist exactly if sender, signing domain and network agree", "statement": "Two messages use the same entry of a user's auto-whitelist if and only if the first addresses of their `From` headers are the same, their `DKIM-Signature` headers name the same signing domain (or neither has one), and the last public addresses they came through agree in as many leading bits as `auto_whitelist_ipv4_mask_len` or `auto_whitelist_ipv6_mask_len` says (or neither came through a public address). A mask length that does not fit the kind of address makes the check fail for every message from such an address.", "quantifier": "every pair of messages, all lists of relay addresses, every pair of mask lengths, every signature header", "why_tests_cant": "That different networks never share an entry depends on how each of 2^32 and 2^128 addresses is written and on which trailing zeros are then removed; a handful of addresses shows nothing about collisions", "anchors": ["oa/plugins/awl.py: AutoWhiteListPlugin.ip_to_awl_key, AutoWhiteListPlugin._get_origin_ip, AutoWhiteListPlugin._get_signed_by, AutoWhiteListPlugin._get_from, AutoWhiteListPlugin.check_from_in_auto_whitelist"]}
{"id": "C149", "title": "IPv6 addresses in Received headers are read whole and classified by their value", "statement": "If a Received header gives an IPv6 address in brackets as the last one before ` by `, in any of its written forms, with or without `IPv6:` before it, that address is the relay's; an address written as `::ffff:` and an IPv4 address counts as that IPv4 address; what is read is always an address that stands in the line. Whether an address counts as private depends on its value, not on how it is written: `::1`, the addresses of fe80::/10 and private IPv4 addresses inside IPv6 ones are private and no others.", "quantifier": "every IPv6 address in every written form, every text around it", "why_tests_cant": "An address has very many written forms, of which the expression lists some in twelve alternatives; which forms slip through between them and which pieces of text are taken for an address cannot be seen from examples", "anchors": ["oa/received_parser.py: IP_ADDRESS, IP_PRIVATE, ReceivedParser.get_ip, ReceivedParser.clean_ip"]}
{"id": "C150", "title": "The Received headers that are ignored are exactly those of the documented handovers", "statement": "A Received header gives no relay if and only if it is of one of these kinds: a handover on the same machine (with local), mail fetched from a mailbox by fetchmail, batched SMTP, Content Technologies, a user of the machine itself under any name or address of it, AVG, a mail address in the place of the host, Unknown/Local, (AUTH: ...), a UNIX socket, traffic inside Amazon, Novell GroupWise, a Raptor firewall, and the pickup service of Microsoft SMTPSVC. No other header is lost.", "quantifier": "every Received header", "why_tests_cant": "A header that is ignored hides a relay from every test of networks; whether some line that a real server writes, or a client can cause, falls into one of fourteen expressions cannot be seen from one example of each", "anchors": ["oa/received_parser.py: ReceivedParser.check_for_skip, LOCALHOST, FETCHMAIL, WITH_LOCAL_RE, BSMTP_RE, FROM_RE"]}
{"id": "C151", "title": "The greeting name of a relay is read from the first format that fits", "statement": "The name a client gave in its greeting is read from a Received header by the first of eleven written formats that the line has (helo=, (HELO name), name (rdns [ip]), and so on); within a format it is the text that the format spells out, with nothing of the rest of the line; a line that has none of the formats has no greeting name. The name is determined by the line alone.", "quantifier": "every Received header 'from ...', and every line whose only white space are blanks", "why_tests_cant": "Eleven regular expressions are tried one after another on text that a remote server has written; tests give one example of each format and cannot show which expression answers for every other line", "anchors": ["oa/received_parser.py: ReceivedParser.get_helo, HELO_RE..HELO_RE10, RDNS_RE4"]}
{"id": "C152", "title": "The host name of a relay is read from the first format that fits, and unusable names are dropped", "statement": "The reverse-DNS name of a relay is that of the first written format the line has; a name that is a mail address, begins with an address in brackets, contains 'unknown' or is UnknownHost, and any name in a Postfix line with (unknown [ip]), is given as empty, and brackets around a name are removed. Every line has exactly one answer.", "quantifier": "every Received header 'from ...', and every line whose only white space are blanks", "why_tests_cant": "Eleven regular expressions are tried one after another on text that a remote server has written; tests give one example of each format and cannot show which expression answers for every other line", "anchors": ["oa/received_parser.py: ReceivedParser.get_rdns, RDNS_RE..RDNS_RE4, RDNS_SMTP, RDNS_SMTP1, HEADER_RE, UNKNOWN_RDNS"]}
{"id": "C153", "title": "The receiving server, the user and the message number of a relay are the ones the line names", "statement": "The server is the word after the first ' by ', the user the word in ident=user) or else (user@, and the number the word after 'id ' without angle brackets; a line without them has empty ones.", "quantifier": "every Received header 'from ...', and every line whose only white space are blanks", "why_tests_cant": "Eleven regular expressions are tried one after another on text that a remote server has written; tests give one example of each format and cannot show which expression answers for every other line", "anchors": ["oa/received_parser.py: ReceivedParser.get_by, get_ident, get_id, BY_RE, RDNS_RE3, IDENT_RE, IDENT_RE2, ID_RE"]}
{"id": "C154", "title": "The envelope sender and the authentication of a relay are the ones the line names", "statement": "The envelope sender is the first word after return-path, envelope-sender or envelope-from, without brackets and what comes before an '='. A relay counts as authenticated if and only if the line names one of the authenticated protocols (after a ' by '), or has the marks of Postfix, Google, SquirrelMail, CriticalPath, Sendmail, GMX or CommuniGate, and the first of these decides how the authentication is called.", "quantifier": "every Received header 'from ...', and every line whose only white space are blanks", "why_tests_cant": "Authentication decides whether a relay is trusted, so a line that is wrongly taken for authenticated lets a client forge trust; the expressions overlap and only their order decides, which examples of each format cannot show", "anchors": ["oa/received_parser.py: ReceivedParser.get_envfrom, get_auth, ENVFROM_RE, AUTH_RE..AUTH_RE5, AUTH_VC_RE"]}
{"id": "C155", "title": "Checks in several server processes, any of which may die, leave the auto-whitelist as if they had run one after the other", "statement": "Whatever the order in which concurrent checks read and write the auto-whitelist, and wherever some of them stop, the entries are those that the finished checks give one after the other, every finished check gives the score it gives there, an unfinished one leaves no trace, and no check waits for another.", "quantifier": "every table, any number of checks and every interleaving of their steps, with any of them stopped at any point", "why_tests_cant": "A test runs one process; a lost update needs a second process to write between the read and the write of the first, and there are unboundedly many interleavings and crash points", "anchors": ["oa/server.py: PreForkServer", "oa/plugins/awl.py: AutoWhiteListPlugin.get_sqlalch_entry, plugin_tags_sqlalch, check_from_in_auto_whitelist"]}
{"id": "C156", "title": "Learning in several processes, any of which may die, counts every message at most once", "statement": "When messages are learned or forgotten by several processes at the same time, or a process dies while it does so, the numbers of messages and of tokens are those of the messages on record as learned, and every call gives the answer it gives alone.", "quantifier": "every database, any number of calls of learning and forgetting, every interleaving of their steps and every point at which a process may stop", "why_tests_cant": "Learning is four separate transactions; a test cannot stop a process between each two of them nor try every interleaving of two processes, and a wrong count never shows until scores drift", "anchors": ["oa/plugins/bayes.py: BayesPlugin.learn_message, _learn_trapped, forget_message, _forget_trapped", "oa/db/bayes/sqlalchemy.py: Store", "oa/db/bayes/mysql.py: Store", "oa/server.py: PreForkServer"]}
{"id": "C157", "title": "A reload takes effect whenever the signal comes", "statement": "When the daemon is told to reload while it answers a request or while it is already reloading, the request is answered with a ruleset that was in force, later requests use the new configuration, and no ruleset made from the old one is used again.", "quantifier": "every configuration, user and request, every sequence of reloads and changes of files between any two steps of a request or a reload", "why_tests_cant": "The signal can arrive between any two steps; a test cannot place it there, and the damage only shows in later requests of one user", "anchors": ["oa/server.py: Server.load_config, get_user_ruleset", "docs/daemon.rst: reloading"]}
{"id": "C158", "title": "What the classifier sees of Message-ID, Received and Content-Type headers", "statement": "Before its words are counted, a Message-ID is reduced to letters, digits and underscores; the parts of Outlook Express, Exim and Sendmail ids that are unique to a message are removed and the parts that identify the sending machine are kept. From a Received header the queue ids, the date and the words with, from, for, SMTP and ESMTP are removed, and every other word is kept in its order. In a Content-Type header the words text and charset are removed, every other word is kept, and the boundary is added with its hexadecimal digits made equal and its separators as words of their own.", "quantifier": "every header value; for the formats, every id, host, date and text around it", "why_tests_cant": "The functions are chains of regular expressions, each applied to the result of the one before; the tests in the repository mock the tokenizer, and a wrong reduction only shows as rare tokens in the database", "anchors": ["oa/plugins/bayes.py: _pre_chew_content_type, _pre_chew_message_id, _pre_chew_received"]}
{"id": "C159", "title": "The declassification distance", "statement": "The declassification distance shown with a token is 0 exactly if the token does not count towards a score. Otherwise it is at least 1, and it is the smallest number of messages of the other kind that the token would have had to occur in, in addition, to speak no longer for its kind.", "quantifier": "every corpus, every token with any counts, every number of additional messages", "why_tests_cant": "The number is the rounded root of a quadratic equation; whether it is the smallest one that suffices depends on all sizes of the corpus and counts, and tests compare a few values with themselves", "anchors": ["oa/plugins/bayes.py: _compute_declassification_distance, _compute_prob_for_all_tokens"]}
{"id": "C160", "title": "Plugins from files", "statement": "A plugin that is loaded from a file is the class that this file defines; if the file does not define the class, loading fails. Loading it does not change any other plugin or Python module.", "quantifier": "every sequence of plugin files, every file name and content", "why_tests_cant": "Whether two files get in each other's way depends on the end of their names and on what was loaded before; tests load single files", "anchors": ["oa/context.py: load_plugin, _load_module_py3"]}
{"id": "C161", "title": "Options of the daemon script", "statement": "The daemon serves on the address, with the rules and the strictness given by its options, and learning and reporting work only if they were allowed. The actions reload and stop send a signal to the running daemon and do nothing else. The pid file names the running daemon and is gone when it has ended. The first default directory that exists is used. Messages about wrong rules are written exactly if the options ask for it.", "quantifier": "all combinations of options, all sets of existing directories, every way a server can fail, every content of the pid files", "why_tests_cant": "The options interact with what exists on the system and with other daemons; the tests mock all of it", "anchors": ["scripts/oad.py: run_daemon, main", "oa/config.py: setup_logging, get_default_configs", "oa/context.py: err"]}
{"id": "C162", "title": "Compiled rules", "statement": "The script that matches messages uses the compiled rules exactly if it is asked to and compiling is supported; then it uses exactly the rules that the last successful compilation wrote. At every moment, whether a compilation is running, has failed or was killed, either the old or the new compiled rules are used, also if several compilations run at once. Compiling is available on all versions of Python that are not too old.", "quantifier": "every number of compilations, every interleaving of their steps with each other and every point at which one fails or is killed; every content of the file; every version of Python", "why_tests_cant": "The file can be read at any moment of a compilation, and a compilation can fail at each of its writes; tests mock the file", "anchors": ["scripts/compile.py: serialize, main", "scripts/match.py: main, call_post_parsing", "oa/common.py: can_compile"]}
{"id": "C163", "title": "Checking messages does not change what was learned", "statement": "Checking a message with the classifier leaves all counts of messages and tokens as they are, so that the result for a message does not depend on which messages were checked before. It only records when the tokens that the score was made from were last of use, for the user concerned, and never sets such a time back.", "quantifier": "every database, every sequence of checks of any messages by processes in any state, with connections and updates that work or fail", "why_tests_cant": "The effect of a check on the next ones depends on the whole database and on all earlier checks; tests mock the store", "anchors": ["oa/plugins/bayes.py: scan", "oa/db/bayes/sqlalchemy.py: Store.tok_get_all, Store.tok_touch_all", "oa/db/bayes/mysql.py: Store.tok_get_all, Store.tok_touch_all"]}
{"id": "C164", "title": "What plugins see of a message", "statement": "During the check of a message every loaded plugin is told that the check starts, then about every part of the message, then that the message is parsed, then (after all rules were evaluated) that the check ends, and then is asked to learn: each exactly once, in this order, and plugins in the order in which they were loaded. A plugin that asks for no further calls keeps only the later plugins from that one call. A plugin that fails does not keep the message from being checked or other plugins from being told. (The last sentence is violated: any exception in a hook leaves the check; before the rules no rule is evaluated, after them the result is lost and nothing is learned.)", "quantifier": "all lists of plugins, all behaviours of their hooks in all states, all numbers of parts and all failures of the work in between", "why_tests_cant": "tests register one or two well-behaved plugins; the order and completeness must hold for every combination of plugins, parts and failures", "anchors": ["oa/context.py: _callback_chain, GlobalContext.hook_check_end, GlobalContext.hook_auto_learn, MessageContext._hook_check_start, MessageContext._hook_extract_metadata, MessageContext._hook_parsed_metadata", "oa/message.py: Message.__init__, Message._parse_message", "oa/rules/ruleset.py: RuleSet.match"]}
{"id": "C165", "title": "What a client is told about a message", "statement": "A server that was started with a set of rule files answers a CHECK or SYMBOLS request about a message with EX_OK, then a line that says whether the sum of the scores of the rules that match the message reaches the required score, with both numbers, then the length of the body, and, for SYMBOLS, the names of the rules that match: higher priorities first, otherwise in the order in which the files mention them. The rules see the message as sent, with its headers, text, links and parts. It does not matter in which pieces the request arrives, and nothing is read beyond it.", "quantifier": "all rule files (with includes and plugin sections), all request lines, options and ASCII messages, all ways in which the transport splits the request, and all bytes that follow it", "why_tests_cant": "Tests check the protocol, the parser, the rules and the message separately, each on a few inputs; that they fit together for every set of files and every request is not covered by any number of such cases.", "anchors": ["oa/server.py RequestHandler.handle", "oa/protocol/base.py BaseCommand.get_and_handle", "oa/protocol/check.py CheckCommand.handle, SymbolsCommand.extra_details", "oa/message.py Message._parse_message", "oa/rules/parser.py parse_pad_rules, get_ruleset", "oa/rules/ruleset.py RuleSet.match"]}
{"id": "C166", "title": "Restored rules behave as they did when compiled", "statement": "Rules that were parsed, compiled and restored in another process give every message the same results, score and tags as the rules just parsed; the same networks are trusted, internal and MSA, the same DNS queries are allowed, and they go to the same servers in the same way; each zone of a block list is the same.", "quantifier": "every set of rules and configuration that can be parsed, every message, every meta rule, every short-circuit configuration, every set of networks and DNS options", "why_tests_cant": "The hooks that run after parsing run again after restoring, on rules they have already changed; tests run them once and compare nothing", "anchors": ["scripts/match.py: call_post_parsing", "scripts/compile.py: serialize", "oa/context.py: hook_parsing_end, _configure_dns, _add_networks", "oa/rules/ruleset.py: post_parsing, call_postparsing", "oa/dns_interface.py: __getstate__, __setstate__", "oa/plugins/short_circuit.py: finish_parsing_end", "oa/plugins/dns_eval.py: finish_parsing_end"]}
{"id": "C167", "title": "Lists in the configuration take effect", "statement": "For every message, each rule about white and black lists is about exactly what the configuration lines give for its own option, in however many lines and files it is given: check_from_in_blacklist about blacklist_from and the authors' addresses, check_to_in_whitelist, check_to_in_blacklist, check_to_in_all_spam and check_to_in_more_spam about their options and the recipients' addresses, check_from_in_list and check_to_in_list about the option they name, the rules about relays and about URI hosts about theirs. Neither the order of the rules, nor other rules, nor the messages checked before matter, and no such line keeps messages from being checked.", "quantifier": "all sequences of configuration lines, all messages with their addresses, relays and URIs, all sequences of rules and all numbers of earlier messages", "why_tests_cant": "a unit test sets the parsed list of one rule by hand and calls one function; that the right list reaches the right rule through options of different types, for every configuration, every order of rules and every history, needs a proof over all of them", "anchors": ["oa/plugins/wlbl_eval.py:check_start", "oa/plugins/wlbl_eval.py:check_address_in_list", "oa/plugins/wlbl_eval.py:parse_list_uri", "oa/plugins/wlbl_eval.py:check_from_in_list", "oa/conf.py:Conf.parse_config"]}
{"id": "C168", "title": "The report a client gets", "statement": "A server is started with configuration files, and a client asks for a report on a message (REPORT, REPORT_IFSPAM). It gets the verdict line and then the lines of the report template that the files give since the last clear_report_template, with every tag replaced by what it stands for: verdict, score, required score, contact, the names of the rules that match, one line for each of them with the score, kind and description that the files give it, the beginning of the text; tags nobody sets are shown between @@. Without a template it is told so. REPORT_IFSPAM gets the verdict only, unless the score reaches the required score.", "quantifier": "all rule files as in C141, templates, messages that can be read and well-formed requests", "why_tests_cant": "Every template, rule set and message.", "anchors": ["oa/rules/ruleset.py:RuleSet.get_report", "oa/rules/ruleset.py:RuleSet._interpolate", "oa/rules/ruleset.py:RuleSet.get_matched_report", "oa/rules/ruleset.py:RuleSet.get_summary_report", "oa/rules/ruleset.py:RuleSet.post_parsing", "oa/rules/base.py:BaseRule.postparsing", "oa/protocol/check.py:ReportCommand", "oa/protocol/check.py:ReportIfSpamCommand"]}
{"id": "C169", "title": "The message a client gets back", "statement": "A server is started with configuration files, and a client asks for the message or its headers (PROCESS, HEADERS). After the verdict line it gets the message with its own headers, to which are added: with report_safe 0 an X-Spam-Report header with one line for each rule that matches; then for every add_header line for all messages, in order, the header X-Spam-<name> with every tag in its value replaced by what it stands for; headers named by remove_header lines are removed after that; then the same for the lines for the verdict of this message. Spam is wrapped (PROCESS, unless report_safe is 0): the same changes are made to the wrapping message, which holds both reports. HEADERS gives the text up to the first empty line.", "quantifier": "all rule files as in C141, header lines, templates, messages that can be read and well-formed requests", "why_tests_cant": "Every configuration, rule set and message.", "anchors": ["oa/rules/ruleset.py:RuleSet.get_adjusted_message", "oa/rules/ruleset.py:RuleSet._adjust_headers", "oa/rules/ruleset.py:RuleSet._add_header_rule", "oa/rules/ruleset.py:RuleSet.post_parsing", "oa/protocol/process.py:ProcessCommand", "oa/protocol/process.py:HeadersCommand"]}
{"id": "C170", "title": "Options of plugins", "statement": "A configuration line for an option of a plugin sets that option of the plugin: from the moment the plugin is loaded, every option it has is what the lines after that prescribe (the last well-typed value, or everything given for an option that may be given several times), and its default if there is none. Loading a plugin again starts from the defaults. A line changes the options of one holder only, and a line for an option nobody has is reported as unknown.", "quantifier": "all plugin classes and their options, all sequences of loadplugin lines and option lines, in every order", "why_tests_cant": "the result depends on the order in which plugins are loaded and on every line before and after; a test fixes one plugin and one line", "anchors": ["oa/conf.py: Conf.__init__, Conf.parse_config", "oa/context.py: GlobalContext.load_plugin, GlobalContext.hook_parse_config", "oa/plugins/base.py: BasePlugin.parse_config"]}
{"id": "C171", "title": "What TELL records", "statement": "A client that sends TELL has the message recorded as the class it names (spam unless it says otherwise), in the local classifier exactly if it names \"local\" and with the remote services exactly if it names \"remote\"; Remove makes the named places forget the message; the answer lists what was done.", "quantifier": "every list of loaded plugins, every message, every set of options a client sends, every state of the classifier's database, every way the services fail", "why_tests_cant": "The effect is that of a request on the product of plugins, database and services; that the named class and places make no difference is a statement about all pairs of requests.", "anchors": ["oa/protocol/tell.py:TellCommand.handle", "oa/context.py:GlobalContext.hook_report, hook_revoke", "oa/plugins/bayes.py:plugin_report, plugin_revoke", "oa/plugins/pyzor.py:_pyzor_report", "oa/plugins/razor2.py:launch_subprocess", "oa/plugins/spam_cop.py:plugin_report"]}
{"id": "C172", "title": "Rules that ask functions of plugins", "statement": "A rule in the installed files that calls one of twelve functions of the plugins (check_for_http_redirector, check_for_missing_to_header, check_header_count_range, check_illegal_chars, subject_is_all_caps, check_for_to_in_subject, check_unresolved_template, check_for_fake_aol_relay_in_rcvd, check_for_forged_gw05_received_headers, tvd_vertical_words, check_blank_line_ratio, check_stock_info) with literal arguments is found in a message exactly when the documented condition holds of that message, whatever other rules are evaluated before it.", "quantifier": "all configuration files in the grammar of C141, all rules, names, arguments, scores and priorities in them, all messages", "why_tests_cant": "The answer of a rule goes through the parser, the registry of functions, the conversion of arguments, the function and the rule's bookkeeping; a unit test calls the function with values already converted.", "anchors": ["oa/rules/eval_.py: EvalRule.match, EvalRule.get_rule_kwargs, _parse_arg", "oa/plugins/uri_eval.py: check_for_http_redirector", "oa/plugins/header_eval.py: check_for_missing_to_header, check_header_count_range, check_illegal_chars, subject_is_all_caps, check_for_to_in_subject, check_unresolved_template, check_for_fake_aol_relay_in_rcvd, check_for_forged_gw05_received_headers", "oa/plugins/body_eval.py: tvd_vertical_words, check_blank_line_ratio, check_stock_info"]}
{"id": "C173", "title": "The rule about words of the stock market counts them", "statement": "check_stock_info(n) holds exactly if at least n terms of the stock market (company, target, opening price, current price, stock, symbol, sector, rating, trade date at the beginning of a line, ...) occur in the text the rule is about; words that only contain the letters of a term do not count, and a term counts however it is divided into words.", "quantifier": "all texts, all numbers, every class of word characters with letters and without line feeds", "why_tests_cant": "The number depends on how every place of the text is read, in which order and with which overlaps, and on what stands before each; a test fixes one text.", "anchors": ["oa/plugins/body_eval.py: STOCK_RE, BodyEval.check_stock_info"]}
{"id": "C174", "title": "Rules have no effect on rules that do not mention them", "statement": "Two installations whose files say the same, in the same order, about some rules that mention only each other give the same results for these rules, whatever other rules, scores, plugins and options the files contain; adding rules to an installation leaves the results of the rules that were there and adds to the score of a message exactly the scores of the added rules that hold.", "quantifier": "all pairs of sets of configuration files in the grammar of C141, all sets of rules closed under being mentioned, all messages", "why_tests_cant": "The two installations differ in arbitrarily many lines anywhere in the files, each of which could change the order of evaluation, the registry or the message; tests compare two given installations.", "anchors": ["oa/rules/parser.py: PADParser", "oa/rules/ruleset.py: RuleSet", "oa/message.py: Message", "oa/rules/base.py: BaseRule.get_rule_kwargs"]}
{"id": "C175", "title": "The order of the lines decides nothing but the order of the results", "statement": "Two installations that define the same rules, with the lines in any order, divided among files in any way and with any priorities, find the same rules in every message, with the same results; if the scores are the same, the message gets the same score.", "quantifier": "all pairs of sets of configuration files in the grammar of C141 that define the same rules, all messages", "why_tests_cant": "There are as many orders as permutations of the lines, and rules that combine others are evaluated from wherever they are first needed; a test compares a few orders.", "anchors": ["oa/rules/parser.py: PADParser", "oa/rules/ruleset.py: RuleSet.match, RuleSet.post_parsing", "oa/rules/base.py: BaseRule.__lt__", "oa/rules/meta.py: MetaRule"]}
{"id": "C176", "title": "The error for too many includes shows how the files got there", "statement": "When includes nest too deeply, the error lists every include on the way, the deepest first: exactly as many as there are levels, each with the number and the text of the line, so that read backwards the list leads from the file that was to be read to the include that was one too many. Every entry names the file in which its line stands.", "quantifier": "all sets of configuration files, all starting files, all states of the parser", "why_tests_cant": "The list is built while an exception passes through any number of files with any lines before the includes; a test looks at one loop, in which the including and the included file have the same name.", "anchors": ["oa/errors.py: MaxRecursionDepthExceeded.add_call, MaxRecursionDepthExceeded.recursion_list", "oa/rules/parser.py: PADParser.parse_file, PADParser._handle_include", "scripts/match.py: main"]}
{"id": "C177", "title": "The parser complains about exactly the bad lines, each once, with file and line", "statement": "While a configuration file and the files it includes are read, a complaint is logged for a line if and only if the line counts (it is not blank, not a comment, not in a disabled section) and an argument is missing, no option has its name, or its priority is not a number. The complaint names the file, the line number and the text of that line, and a line that is read once is complained about once.", "quantifier": "all files, include trees, plugin commands and options, in paranoid and tolerant mode", "why_tests_cant": "Whether a line is bad depends on the commands and sections that the lines before it set up, in all files; tests compare a few messages only.", "anchors": ["oa/rules/parser.py: PADParser._paranoid, PADParser.parse_file, PADParser._handle_line", "oa/errors.py: InvalidSyntax", "oa/context.py: err"]}
{"id": "C178", "title": "Old tokens leave the Bayes database", "statement": "With bayes_auto_expire set, tokens that have not been seen in any message for a long time are removed from the database, so that old mail stops having an influence and the tables stay small.", "quantifier": "all histories of learning, forgetting and checking, all contents of the tables, all ages, both stores", "why_tests_cant": "Expiry shows only after long histories; a test that learns a few messages cannot tell a token that is kept because it is recent from one that is never removed.", "anchors": ["oa/plugins/bayes.py: BayesPlugin.options (bayes_auto_expire), BayesPlugin.learn_message, BayesPlugin.forget_message, BayesPlugin.scan", "oa/db/bayes/mysql.py: MySQLBayesStore.expiry_due, MySQLBayesStore.tok_touch_all", "oa/db/bayes/sqlalchemy.py: SQLAlchemyBayesStore.expiry_due"]}
{"id": "C179", "title": "A DKIM signature is valid only with the key that DNS has for it", "statement": "The key of a DKIM signature is the text of the TXT record at the name the signature gives, however that record is split into strings and whatever aliases lead to it. If the key cannot be had, because the name does not exist, there is no answer, the name is restricted or DNS is not available, no rule says that the signature is valid. A restricted domain is not asked for keys.", "quantifier": "all names, answers of DNS, restrictions, availability settings, messages and orders of rules", "why_tests_cant": "The answers of DNS and the order in which rules run are not under the control of a test; what an exception in a lookup leaves behind shows only in later rules.", "anchors": ["oa/plugins/dkim.py: DKIMPlugin.get_txt, DKIMPlugin.get_txt_dnspython, DKIMPlugin.check_dkim_signature", "oa/dns_interface.py: DNSInterface.query, DNSInterface._query, DNSInterface.is_query_restricted"]}
{"id": "C180", "title": "A spam report reaches the mail server of its receiver", "statement": "A report to SpamCop is sent to the mail server that DNS prefers for the domain of the configured address, and to another server of the domain if that one does not take it. The plugin says that the report was made exactly if a server took it, and what was taken is the report, from and to the configured addresses.", "quantifier": "all addresses, DNS answers, preferences, servers that take or refuse mail, and messages", "why_tests_cant": "Which servers a domain has, in which order DNS lists them and which of them are up differs at every run; a test fixes one answer and replaces the mail library.", "anchors": ["oa/plugins/spam_cop.py: SpamCopPlugin.send_mail_method, SpamCopPlugin.plugin_report"]}
{"id": "C181", "title": "The free-mail sender rule looks at all senders of a message", "statement": "The rule for free-mail senders looks at the sender of the envelope and at every address in every From, Envelope-Sender, Resent-Sender, X-Envelope-From and Resent-From header (and EnvelopeFrom if the sender of the envelope is not known), whatever the case of the header's name and whatever was read from the message before, and at no other address; without an expression it holds exactly if one of them has free mail. A header that cannot be read hides no other sender.", "quantifier": "all messages with any headers, all senders of the envelope, all earlier accesses to the headers, all configurations of free-mail domains", "why_tests_cant": "The set of senders depends on every header with one of six names, on the sender and on caches filled by earlier accesses; tests fix a few headers of which all can be read", "anchors": ["oa/message.py: Message.get_all_from_headers_addr, Message.get_all_addr_header", "oa/plugins/free_mail.py: FreeMail.check_freemail_from", "oa/rules/eval_.py: EvalRule.match"]}
{"id": "C182", "title": "A listed address is noticed wherever it is in the message", "statement": "A message is on a list of authors (blacklist_from and the other lists of addresses) exactly if one of the addresses in its From, Envelope-Sender, X-Envelope-From or EnvelopeFrom headers is, whatever the case of the header names, the number of addresses and what was read before; the same for lists of recipients and the headers with recipients. What the sender adds to the message cannot take an author off a list.", "quantifier": "all messages with any headers, all lists of entries, all earlier accesses to the headers", "why_tests_cant": "The result depends on all headers with one of five or fourteen names, their order and caches; an attacker chooses the headers, tests choose a few", "anchors": ["oa/message.py: Message.get_from_addresses, Message.get_to_addresses", "oa/plugins/wlbl_eval.py: check_address_in_list, check_from_in_blacklist, check_to_in_blacklist, check_to_in_whitelist"]}
{"id": "C183", "title": "Rules about free mail in a named header see every header of that name", "statement": "The rule about free mail in a named header holds, without an expression, exactly if an address in any header of that name, in capital or small letters, has free mail; the rule about different free-mail addresses looks at every Reply-To header. No header that stands before another of its name hides it.", "quantifier": "all messages with any headers, any number of which have the name; all expressions that find addresses; all settings", "why_tests_cant": "Which occurrence of a repeated header counts shows only with repeated headers, in every order and in every case of letters; tests have each header once", "anchors": ["oa/plugins/free_mail.py: FreeMail.check_freemail_header, FreeMail.check_freemail_replyto"]}
{"id": "C184", "title": "The marks of a delivered message are those of the scanner", "statement": "Every header whose name starts with X-Spam- on the message that is delivered is one that an add_header line for the verdict (or for all messages) asks for, or the report that report_safe 0 asks for; a mark that the sender wrote on the message is not delivered as if the scanner had written it.", "quantifier": "every list of add_header and remove_header lines, every message with every headers, every verdict and every value of report_safe", "why_tests_cant": "A test fixes one message and one list of lines; whether a forged mark survives depends on all the lines, on the verdict and on how the message is delivered, and the sender chooses the headers.", "anchors": ["oa/rules/ruleset.py RuleSet._adjust_headers", "oa/rules/ruleset.py RuleSet.get_adjusted_message", "oa/rules/ruleset.py RuleSet.get_bounce_message"]}
{"id": "C185", "title": "The delivered message can be read again", "statement": "The text of the message that is delivered begins with exactly the headers of the adjusted message, in order, followed by an empty line and the body, so that a mail reader finds the headers of the sender and the marks of the scanner as headers and the body as the body.", "quantifier": "every message, every list of add_header and remove_header lines, every list of rules that matched, every body, versions of Python's email package with and without a check of what they write", "why_tests_cant": "A test looks at one message; the values of the headers depend on which rules match and on tags that repeat text of the sender, and a test that asks the message object for its headers does not read the text.", "anchors": ["oa/rules/ruleset.py RuleSet.get_adjusted_message", "oa/rules/ruleset.py RuleSet.get_matched_report"]}
