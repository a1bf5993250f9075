{
 "C04": "Ordering and reading of priorities proved. Witness: the configured priority of a mimeheader rule is dropped, so such rules are not ordered as configured.",
 "C06": "Violated by the code when the first of four scores is 0 (the advanced selection is skipped); proved otherwise for all names, lists, flags and configurations.",
 "C07": "All checking commands, REPORT_IFSPAM, the header choice of PROCESS and HEADERS, the wrapping and the YESNO tags follow 'required score <= score'. Violated when the score is NaN (score X nan is accepted): REPORT_IFSPAM compares the other way round.",
 "C10": "Violated for '!' used as an operand of arithmetic or comparison (two witnesses), for rules named like words of Python, and for rules named 'msg' or 'match' (the names of the compiled function). Proved for every other expression and spacing in which such '!' is parenthesised; numbers have no leading zeros: with them, any number but zero raises (C10_zeros_violated).",
 "C100": "Proved: if nothing fails every message is processed once, in order, as the options say. Violated: the number printed is the number of paths (count += 1 is outside the inner loop), and one bad file or message ends the script.",
 "C101": "Full, for every list of headers.",
 "C102": "Proved if the headers have different values. Violated: values are put into a set, so headers with the same value count as one, however many there are (C102_same_violated).",
 "C103": "Exact description proved for subjects that can be decoded, with one mark passed over. Violated: only the first of several marks is passed over, so 'Re: Fwd: …' never counts; a subject that cannot be decoded ends the rule. Which letters are capital is a parameter.",
 "C104": "Exact descriptions of both forms proved. Violated: 'Re: user' is not recognised since the expression is written in small letters and without a flag; the end of any longer word counts if a punctuation mark follows. The subject is the header as it is written, not decoded.",
 "C105": "Soundness and, for separate domains, completeness proved. Violated: domains contained in one another are taken to be equal; of several From addresses only the last decides; senders match if none is known, or if one is a part of the other.",
 "C106": "What must be true if a rule holds is proved, and that messages written as the provider writes them are not reported. Violated: Juno messages without X-Originating-IP are always forged; a relay whose name contains yahoo.com suppresses the rule; an address that merely contains it is checked; without Received headers nothing is found. The regular expressions are parameters.",
 "C107": "Names hold as stated. Numbers, areas, ratios, sizes and ranges are proved exactly for images that can be opened, types not called all, and bounds given by usable numbers other than zero. Violated: an upper bound of zero is no bound; a type called all is counted twice; sizes are kept for the type of the first copy only; an image that makes the library raise another exception makes the message impossible to check; image_name_regex is not registered.",
 "C108": "Numbers, documents, details and names are proved exactly, with bounds as numbers and documents that can be read. Violated: the detail asked for makes no difference; bounds written as texts never hold and an upper bound of zero is none; a document without a name makes pdf_name_regex depend on the order of a set; a broken document makes the message impossible to check; pdf_match_fuzzy_md5 is not registered.",
 "C109": "Holds as stated. When the detection raises, as it does for texts without letters, the rule does not hold and the tag is not set.",
 "C110": "The rules go by the expressions given in the whole process (exact), so the property holds with one configuration per process. Violated: the lists are kept in the class and all configurations share them.",
 "C111": "Exact for texts whose characters have an upper case of one character, counting every letter that upper() leaves alone as a capital letter. Violated: letters of scripts without case count as capital letters; after a character such as the sharp s, whose upper case is two characters, capital letters are compared with their neighbours and count as small.",
 "C112": "Proved: exactly when the rule holds, the servers asked and the tags. Violated: a server that fails hides what the servers after it know.",
 "C113": "Proved if all servers can be reached. Violated: servers after one that fails are not told.",
 "C114": "Proved: the program is run once, the first rule is right, and a failing program makes no rule hold. Violated: the return code is kept and read as a truth value, so later rules get the opposite answer.",
 "C115": "Proved: tag and header are right, and they are all that rules see if the message has no such header or decoded headers are kept. Violated: in lazy mode, the default, a header of the message itself is seen as well; a relay without address makes the message fail.",
 "C116": "Proved: exactly when and what is sent, as the code has it. Violated: dont_report_to_spamcop has no effect on reports, and a message whose first Received header has no date raises.",
 "C117": "Proved for MySQL, PostgreSQL, SQLite and URLs. Violated: user and password are not quoted, so different ones give the same URL; a user without password is forgotten; a URL without SQLAlchemy raises.",
 "C118": "Proved for public addresses and no other address behind the bracket. Violated: in the form of Exim the client's own name stands behind the address and wins if it is an address in brackets.",
 "C119": "Proved for lines of Postfix servers with ordinary names. Violated: a client that calls itself Unknown/Local is dropped, and so is any header with the words 'with local'.",
 "C12": "C12_nested_violated: a section inside a section that is not taken ends that section too early. Proved: every sequence of sections without nesting (C12_sections_partial), and files with includes and with sections nested to any depth in parts that are taken (C12_nested_partial). Missing: nothing but the violated case, sections inside parts that are not taken.",
 "C120": "Proved with the real expressions for all ordinary names, however the header is folded. Violated: names with 'unknown' in them are lost; the names X-ORIGINATING-IP and return-path disturb the other fields.",
 "C121": "Proved if another word follows. Violated: if only the date follows, the name is lost.",
 "C122": "Proved for the last 'id '. Violated: the number of a user (uid) behind it is taken instead.",
 "C123": "Violated by entries with a bit set after the prefix, such as 192.168.1.1/24: ip_network is called in its strict mode, the error is logged as a warning and the entry is stored without a network (C123_host_bits_violated, both families). Without a mask nothing is missing (C123_octets).",
 "C124": "Violated: an entry stored without a network makes every lookup of a non-loopback address raise, so every message with a relay fails; proved for entries with host bits and for one or two octets without a trailing dot (127/8, 172.16).",
 "C125": "Violated if an entry has a bit set after its prefix (C125_host_bits_violated): lookups of addresses that no earlier entry is about fail, whatever follows; the others are answered as expected. Without such entries the property holds (C125_trusted_partial, C125_internal_partial).",
 "C126": "The loop over the parts of a domain (bayes.py 849-856) replaces the domain by the character with code 1, because \"\\1\" is not a raw string, and that is never empty: one word such as x.com in the text is enough for tokenise not to return (C126_url_violated, for every number of rounds). C126_ends_partial: it ends if no dot stands before a letter in the texts to read.",
 "C127": "Proved for words in ASCII. C127_alphabet_violated: letters beyond Latin-1 give no tokens at all, so a Greek or Russian text is as good as empty. Hashing of tokens is not modelled.",
 "C128": "The list is compared before lower-casing, so You gives the tokens You and you (C128_capital_violated).",
 "C129": "A word such as j@xyz adds a generator instead of its texts, and encode then raises AttributeError (C129_address_violated).",
 "C13": "Fails for lang lines containing 'report' and for the target of redefined eval rules (witnesses). Proved for all other sequences of definition lines, and for lang lines.",
 "C130": "find_all_addrs_in_line yields the first character of the group, so no address is ever found (C130_addresses_violated: the tokens are the same whatever the addresses are).",
 "C131": "Of In-Reply-To, References and Message-ID the one that is enumerated last is the value of *MI; the names are in a set of strings.",
 "C132": "The list has X-Spam-Status-Version, X-Spam-Flag-Version and so on instead of X-Spam-Status, so the results of an earlier scan are learned (C132_markup_violated).",
 "C133": "Exact for the first message of a process (C133_exact_partial); found when listed (C133_found_partial). Violated: only the last line of whitelist_from_dkim counts; an entry covers every address that begins with one it stands for; . is any character; of several domains only the last counts, and it is compared with the author's domain instead of the signer; def_whitelist_from_dkim takes domains for patterns; a blank entry disables the list; removals that name domains do nothing.",
 "C134": "Exact for the first message and three overrides at most. Violated: more than three overrides disable the rules; D holds for any author domain that is no entry; U holds whatever the overrides say, and after any hit of another rule never again without an override; overrides apply to every domain that contains theirs.",
 "C135": "Exact for the first message. Violated: a domain that contains the name counts, names with more labels stand for their last two, names without a dot never count, signatures of other domains than the author's count as none.",
 "C136": "Exact for both rules when all Received headers can be decoded. Violated: a header that cannot be decoded makes the rule raise, which hides the headers after it.",
 "C137": "Exact for the lines of the message. Violated: the lines of the body count, and so does the second line of a folded header that may have anything in it.",
 "C138": "Exact for texts without special characters of expressions, with recipients that are written as an address alone. Violated: the dots of an address stand for any character; recipients in angle brackets and recipients in a domain with two parts before the known ending are never found.",
 "C139": "Exact when the check of groups comes to an end. Violated: a recipient in a group of MSN with a name in front of the address makes the check raise, so that neither rule ever holds; a domain that only has hotmail.com in its name counts as Hotmail.",
 "C140": "Both directions for Outlook, exact for usable ids. Violated: without a Date that can be read the rule about Outlook never holds, however far the time of the receipt is.",
 "C141": "Proved for files with includes, sections for plugins (nested in taken parts) and lines for one language, whose lines define rules or set options, where every rule mentioned either has a readable definition of any type (body, rawbody, full, uri, header, mimeheader, meta, eval) or is no rule (undefined, an expression that does not compile, a function that no plugin has), and no meta rule is nested deeper than eleven levels. Functions called by eval rules are assumed to answer by the message alone. C141_installed_partial adds files read first that load plugins (some of which may be missing) and set options; C141_text_partial allows lines that load plugins and set options anywhere between the rules. Missing: mimeheader rules with a priority (it is lost, C04), eval functions that change what other rules see, rules of types that plugins define, deeper nesting (C57).",
 "C142": "Proved: exactly two parts, found by a reader whatever the lines; the original verbatim unless report_safe is 2; the report verbatim up to line ends if it is ASCII; the headers. Violated: the type is message/rfc882, never message/rfc822; with report_safe 2 every carriage return is lost; HEADERS gives the headers of the original. Missing: readers that allow white space after a delimiter; reports that are not ASCII (base64 is a parameter); folding of long headers (a parameter). How the email package writes the headers is a parameter here, a total function; C185 shows when it fails or breaks them.",
 "C143": "Proved for histories without exceptions, and that exceptions in learning do no lasting harm. Violated: an exception in a scan sets a flag for the rest of the process, after which every scan and every learning leaves its connection open; with pymysql an ignored message after a scanned one raises.",
 "C144": "Proved: for entries without wildcards, which messages are left out, and that these are not scored. Violated: entries are unanchored expressions; one that begins with * ends every scan with an exception; an entry after a comma and a space is never found. Missing: entries with other special characters (the engine is a parameter).",
 "C145": "Proved: the numbers for all sequences of rules; the tags exist if no scan raised. Violated: with a database that cannot be written, every message that would be scored ends the check with a KeyError; all tokens are listed, not five. The order of the tokens is that of a Python set and is left open.",
 "C146": "Proved for every subject of one line without five digits in a row (C146_found), and for numbers of seven or more digits in subjects with ordinary spacing. Violated: behind # the number is a comment of the expression, so that one of the words anywhere suffices; a mark before the number is taken to be part of it and the announcement is missed; an opening parenthesis makes the expression invalid. Missing: other identifiers with long numbers.",
 "C147": "Proved for header lines and a first line without the odd line breaks of Unicode (\\v, \\f, \\x1c-\\x1e, \\x85, U+2028, U+2029). Violated for these: a form feed in a header can make a message with the empty line look as if it lacked it; and for a first body line of white space such as no-break spaces, which is taken for the empty line.",
 "C148": "Violated by signatures with blanks before '=' (the domain is not found), by a tab after the domain (kept as part of it) and, with a database that compares letters exactly, by addresses that differ only in letter case (separate entries). The partial theorem covers every message whose signature is written without these.",
 "C149": "Violated: 1::ffff:2 loses its middle; an address with capital letters is never read whole; 0:0::0:0:ffff:10.1.2.3 counts as public. The address must stand in brackets.",
 "C15": "Fails for options with unusable values, plugin names without module, and lang without locale: they abort tolerant parsing (witnesses). Proved for lines with missing arguments, and that nothing else aborts: C15_real_partial says so for the main configuration, files whose numbers can be read and plugins that load or are refused.",
 "C150": "The equivalence is proved for all headers (C150_ignored, C150_header). Violated: a fetchmail line that gives the name of the host without its address is not ignored.",
 "C151": "Complete for all lines whose only white space are blanks, which is every header the parser reads (C151_header).",
 "C152": "Complete, as C151. RDNS_SMTP, RDNS_SMTP1 and RDNS_RE1 are proved to be dead code (Lemmas/Rdns.lean).",
 "C153": "The exact answers are proved (C153_by, C153_ident, C153_id). Violated: in 'client [ip] by server [ip]' the server is given as its address (C153_by_violated); a server that is the last word of the line is not found (C153_by_end_violated); the number is what follows the last 'id ', even inside another word such as userid (C153_id_violated). C153_by_partial leaves these lines out.",
 "C154": "Complete, as C151.",
 "C155": "Serialisable for every schedule in which no other check of the same sender finishes between the two steps of a check (so for all schedules of checks of different senders), with checks stopped anywhere. Fails otherwise: when any number of checks of one sender and network have read before the first writes, only one message is counted (C155_lost_violated, for every table). The statements of merge and commit are taken as one step of the database.",
 "C156": "For a store that does what learning expects (the two stores of the code do not, C45 and C46): for every interleaving of calls about different messages the result is the one of the calls one after the other, and running what calls have left is invariant, so a dead process misses just its own rest. Fails when processes learn the same message at once, which counts it once for each (C156_twice_violated, any number, any order after the lookups), and when a process dies between counting and recording (C156_crash_violated). One method of a store is taken as one step.",
 "C157": "C157_in_force, C157_nothing_between hold; C157_kept_partial and C157_reload_partial need that no reload falls between copying the definitions and keeping the ruleset, or into another reload: C157_stale_violated, C157_lost_violated, C157_gate_violated, C157_nested_violated show what happens then, for every configuration.",
 "C158": "Violated: an Exim id in a Received header leaves its last two parts as words (C158_received_id_violated); every run of separators in a boundary becomes U+0001 (C158_separators_violated). Partial: values without ids and without colons, and a complete date with a numeric zone at the end of a value; zone names such as (UTC) after the date are not covered.",
 "C159": "Violated for spammy tokens: the distance can be one too small (C159_spammy_violated). For hammy tokens the number itself suffices up to two millionths of probability (C159_hammy_enough). Exact arithmetic instead of floats.",
 "C16": "Proved for plain header names whose values can be decoded. Witnesses where the code deviates: '=~' inside a pattern after '!~', an undecodable value, ALL lower-cases header names, exists: eats leading letters of the name. mimeheader: same restrictions as the pattern theorem.",
 "C160": "Violated: happy.py and hac.py are the same module ha, osc.py runs in Python's module os (C160_overwritten_violated), and a class that a file does not define is taken from another file (C160_missing_violated). Holds if the name of the module is not taken.",
 "C161": "Violated: --allow-tell has no effect; reload and stop need directories with rules; a daemon that can not bind leaves its pid file; a server in the foreground removes the pid file of a running daemon; --show-unknown shows nothing in scripts without log file. argparse and spoon are not modelled.",
 "C162": "Fails in part: a compilation that fails or is killed destroys the rules compiled before; two at once can leave a file that is neither; missing or damaged files and missing configuration files end the script. pickle is a parameter with two laws.",
 "C163": "Counts and results are never changed by checks. Access times can be set back, for all users; with several users in the table SQLAlchemy raises.",
 "C164": "Any exception in a hook leaves the check (violated): before the rules no rule is evaluated, after them the result is lost and nothing is learned. Order, at-most-once and completeness without exceptions are proved for all plugins.",
 "C165": "End to end, for rule files as in C141_text_partial, which may load plugins between the rules, and well-formed requests with ASCII messages that can be read. Missing: everything C141 leaves out, messages with other characters (C38_split_violated), compressed messages (C38_zlib_violated), rules of users, and the reports and rewritten messages of the other commands (C06, C07 and C08 are about them). A subject that cannot be decoded gets no answer (C165_subject_violated).",
 "C166": "C166_restored_partial: whatever could be parsed can be restored, and every check of every message gives the same; the networks, DNS availability, restrictions, servers and port are the same, and zones on which the rules agree. Violated: the EDNS payload set after parsing is on the resolver, which is not saved, and is not set again (C166_edns_violated); zones are recomputed from the rules in order of priority instead of the order of the files, so a zone that two rules define differently can change (C166_zones_violated).",
 "C167": "Proved from the lines of the configuration to the result of every rule, for any rules before it and any number of messages before: address lists hold all words of all lines and reach the rule (and addresses) they are documented for. Violated: of several lines for whitelist_from_rcvd, def_whitelist_from_rcvd, enlist_uri_host, delist_uri_host, whitelist_uri_host and blacklist_uri_host only the last counts (C167_lines_violated); an enlist_uri_host line with an empty element, such as one that ends in a comma, makes the check of every message raise (C167_blank_violated); check_from_in_list with whitelist_from_rcvd does not look at relays (C167_relay_violated). What an entry stands for is C66, C68 and C70.",
 "C168": "Proved for templates without percent signs and double underscores (C60). The main configuration meets the condition on options if the numbers in the files can be read (C168_calm, C168_rules). A single percent sign in the template makes the answer break off after the verdict, whatever the rules (C168_percent_violated). TESTSSCORES shows the results of the rules, not their scores, as in C61. The files may load plugins between the rules, as in C141_text_partial.",
 "C169": "C169_process_partial: the additions come before the removals whatever the order of the lines (C56), and tags in templates without percent signs. A percent sign breaks the answer off (C169_percent_violated). What the wrapping message looks like is C142. The files may load plugins between the rules, as in C141_text_partial. How the email package writes the headers is a parameter here, a total function; C185 shows when it fails or breaks them.",
 "C17": "Proved for texts that do not start with the opening delimiter and are not empty between equal delimiters; local flags, atomic groups and optional boundaries have their own theorems. Witnesses: nested, empty and blank patterns.",
 "C170": "Proved: what a plugin's options are after any configuration, when no plugin asked before it has an option of that name (C170_since_load, C170_scalar, C170_append); who claims a line (C170_claimed); that one holder changes at most (C170_one_holder); the same for configuration files, with includes, sections and languages, that are read without an exception (C170_files, C170_file_scalar, C170_file_append, C170_file_main), and that a line that cannot be read ends the reading after what stood before it (C170_file_stops). Violated: an option that an earlier loaded plugin has too never reaches the later one (C170_taken_violated; C170_tlds_violated for HeaderEval and FreeMail of this code base); appended values survive loading the plugin again (C170_reload_violated). Missing: plugins loaded from a path, WhiteListSubjectPlugin, which overrides parse_config.",
 "C171": "C171_spam_partial: spam recorded both here and elsewhere is learned and reported as asked. Violated (for every installation that works): good mail is learned and reported as spam (C171_ham_violated), 'local' only tells the services too, 'remote' only trains the classifier too, Remove trains as ham instead of forgetting; what is done never depends on the class or the places (C171_deaf_violated); a plugin that fails keeps the later ones from acting and the answer from being given (C171_failure_violated); in particular, with the databases of the code no message that is not on record can be reported (C171_database_violated), and a client that asks for both halves is told of neither although the first was done (C171_late_violated).",
 "C172": "C172_asked_partial: with files in the grammar of C141, a rule that calls one of twelve functions (redirections, missing recipients, numbers of headers, illegal characters, capitals in subjects, recipients in subjects, placeholders, two kinds of forged Received lines, white space, empty lines, terms of the stock market) with literal arguments has the value 1 exactly when the function's condition holds of the message, and 0 otherwise, in any order of the rules. C172_order_violated: check_illegal_chars('ALL', ...) is different: after it no rule counts subjects any more. Missing: the other functions, and the messages on which the single functions go wrong (C81, C90, C97, C102 and C173 list those).",
 "C173": "C173_least: at least as many terms are counted as there are words with a term in them. C173_words_partial: the rule holds exactly if that number is large enough, where no word has several terms one after the other. Violated: a term within a longer word counts ('operating', 'accompany', C173_inside_violated), a term written as two words ('Opening Price') does not (C173_phrase_violated). Non-ASCII characters that re.I takes for s or k are not modelled.",
 "C174": "C174_local_partial: results of the common rules; C174_added_partial: the score. Partial: both configurations are in the grammar of C141 and the functions they ask answer from the message alone. Violated without this: C174_score_violated, a score that is no number in any rule means that no rule is there and no message can be checked.",
 "C175": "C175_order_partial: the same results for every order of lines, files and priorities, and the same score if the order of addition does not matter. Violated without this: C175_rounding_violated, 0.1, 0.2 and 0.3 as doubles add up to 0.6000000000000001 or 0.6. Partial: the grammar of C141, functions of plugins that answer from the message alone.",
 "C176": "The list has exactly one entry per level with the right line numbers and texts (C176_list). Violated: entries name the included file, not the file in which the line stands (C176_file_violated, C176_missing_violated); they are right for a file that includes only itself (C176_self_partial).",
 "C177": "Which complaints are made, and for which file, line number and text, is exact in both modes (C177_exact, C177_where). Violated in paranoid mode: a missing argument in an included file is reported once for every level of includes (C177_repeated_violated); once per line is proved for files without includes. The log level and the wording are not modelled.",
 "C178": "Violated for every history: nothing in the plugin or the stores removes a token, and bayes_auto_expire is never read. There is no positive part to prove; what a check may change is C163.",
 "C179": "Proved: which text the library gets as a key, for all answers, and that the first rule of a process holds only with it. Violated: every failed lookup ends in an AttributeError that no handler expects, and from then on all rules hold; with byte strings of newer libraries every lookup does; dkimpy asks for names with a dot at the end, to which restrictions do not apply.",
 "C18": "Tolerant mode proved for definitions that raise no exception outside invalid-rule/invalid-regex. Witnesses: header rule without operator, non-numeric score and blank pattern abort the whole build. Validity characterised for full/body/rawbody/uri.",
 "C180": "Proved: the answer is that of the server and what is sent is the report; for plain addresses it goes to the first record. Violated for all inputs: preference (C180_preference_violated), no second try (C180_retry_violated), no records (C180_none_violated), quoted at signs (C180_quoted_violated), HELO (C180_helo_violated).",
 "C181": "C181_senders: the addresses are exactly the senders of the specification, after any accesses. C181_rule_partial: the rule without an expression. Violated: a header among these that can not be decoded (get_decoded_header gives no text, or getaddresses raises) makes the rule false whatever the other senders are (C181_unreadable_violated).",
 "C182": "C182_from_partial, C182_to_partial: messages without Resent headers whose headers can be read. C182_configured_partial: from the lines of the configuration to the answer (with C167). Violated: a Resent-From header with any unlisted address takes a listed From off blacklist_from (C182_resent_violated), and so does a From or Resent-From header that can not be decoded (C182_unreadable_violated). What an entry stands for is C66.",
 "C183": "C183_one_partial: one header of the name. Violated: later headers of the name are not looked at (C183_second_violated), so that an empty first one or one without free mail hides them (C183_hidden_violated), also for Reply-To (C183_reply_violated); check_freemail_from does look at all of them (C181, example).",
 "C184": "Marks of the lines only are proved when the message has none of its own, when spam is wrapped, and for names that are removed from all messages and added for one verdict. Otherwise the property fails: marks the sender wrote are delivered, before those of the scanner (C184_forged_violated), because removal is only done when a remove_header line asks for it.",
 "C185": "Proved for headers with proper names whose values have no line breaks but those of folding (C185_kept_partial), so for every message with such headers that gets marks on one line (C185_marked_partial). Violated by every sender who writes a form feed before a visible character in any header, whatever the configuration, unless the message is wrapped (C185_header_violated), and in the subject even if it is wrapped (C185_subject_violated); with add_header lines that show _PREVIEW_, by a form feed in the text (C185_preview_violated); and whenever report_safe is 0, a rule matches and no remove_header line takes X-Spam-Report away (C185_report_violated). In each case there is no message at all, or the headers end there and later marks fall into the body. Missing: folding of long values, values that are not ASCII, messages with parts.",
 "C21": "Fails for append options: the default list object is shared by all contexts (C21_append_leak_violated). Proved for all other options and for append options that are not given.",
 "C22": "Fails for evaluation rules shared by two plugins and for loads that fail halfway (witnesses). Proved: plugin registry for every history; evaluation rules when no other plugin declares the same rule.",
 "C25": "Proved for lists of valid networks. Witness: an invalid network is stored as None and every lookup that reaches it raises.",
 "C27": "Proved for histories without an MSA network before the first internal one. Witness: after an MSA network, the first internal network does not clear the trusted ones.",
 "C28": "Partition, order, intl mark and totality proved; totality needs valid networks. Witness: one invalid network makes classification raise. Addresses are assumed parseable; the relay tags are not modelled.",
 "C32": "Search proved to end for every name and to follow the closest listed covering name; denied queries send nothing. Reading the option: a first value without a blank aborts loading (violated).",
 "C33": "Over all histories with a monotone clock; yes/no never test; tests at least one interval apart.",
 "C35": "Raw, decoded, address and presence access proved. After parsing, every header but Received reads as written. Witnesses: parsing adds pseudo Received headers when originating_ip_headers is set; a plugin header hides the message's own. C35_added_partial: values added by plugins come last, in their order; the message's own ones are before them unless it was read without a first look (then they are hidden).",
 "C37": "Proved for all UTF-8 option lines. An option line that is not UTF-8 ends the connection without an answer: violated.",
 "C38": "Framing proved for every transport chunking and length; acceptance for ASCII messages. Violated by the code: a valid UTF-8 message is refused when a character straddles a chunk, and compressed messages are never accepted.",
 "C39": "Proved for commands that end without an exception; announced length equals the bytes sent for ASCII payloads. Violated: the length counts characters; a KeyError while answering (e.g. report_safe 0 on a short-circuited message) adds an error line after the success line; other exceptions leave the request unanswered.",
 "C40": "Proved for request lines of two words. Other request lines are not answered at all: violated.",
 "C41": "Proved for comma-separated lists without blanks and hooks that do not fail. Violated: 'local, remote' is answered as done but remote is ignored; if revoking fails the report already made is not mentioned.",
 "C42": "Gating and the missing-preferences case hold for every history (C42_not_allowed, C42_no_preferences), and the request uses the ruleset of the last User line (C42_named_user). Isolation is proved as non-interference for rules, plugins and options that lines set (C42_isolation_partial, on the parser and option models). Violated for options that lines add to: default lists are shared class attributes, so one user's 'report' line shows up for another user and for the site after a reload (C42_isolation_violated).",
 "C43": "C43_reload: after a successful reload only rulesets made from the new files are used. C43_as_new_partial: rules, plugins and set-type options equal those of a new server. Violated: added-to options double at each reload (C43_reload_violated); preferences created after the first request change the rules without reload (C43_new_prefs_violated). C43_same_rules_partial and C43_read_once_partial need the preferences to have been read, respectively to be parseable.",
 "C44": "Exact characterisation: confined if and only if the name is non-empty, has no slash and is not '.' or '..' (C44_confined_partial). Violated for other names a client can send (C44_confined_violated). Symbolic links are not modelled.",
 "C45": "The plugin's logic (learn, learn again, learn as the other class, forget) is proved for every store that meets the stated contract. Both stores in the code break the contract: seen_get raises for every message without a record, so no new message is ever learned (C45_new_message_violated); forgetting a message with tokens raises after overwriting the numbers of messages (C45_forget_violated).",
 "C46": "Over any store meeting the contract the counts equal the learned history, for every history (C46_history_partial). With the stores in the code nothing is ever learned from an empty database (C46_nothing_learned_violated), and changing the class of a recorded message overwrites the counts (C46_overwritten_violated, C46_half_done_violated).",
 "C47": "Range, exact value and skipping are proved in exact rational arithmetic for all counts. 'More spam occurrences never lower it' holds whenever there are at least as many ham as spam messages (C47_more_spam_partial) and is false otherwise (C47_more_spam_violated, 200 ham and 30000 spam messages).",
 "C48": "C48_range holds for every lawful rounding (Spec/BayesScore.Lawful), not only exact arithmetic; value, symmetry and monotonicity are for exact real arithmetic. The unused NaiveBayes combiner is not modelled.",
 "C49": "With at most 150 known tokens and none skipped exactly the strong enough ones are used with their own probability. With more, the weakest are used (C49_weakest_violated, C49_strongest_violated); a skipped token shifts the probabilities of the following ones (C49_misaligned_violated).",
 "C50": "All histories of messages of one user against an initially empty table (SQLAlchemy store): the rows of a sender add up to the sender's messages and their unadjusted scores (C50_sender_total); a check leaves every other entry alone (C50_others_untouched); each row is exactly the summary of the sender's messages from that network (C50_entry_partial) unless messages with and without a known origin are mixed, because the row without an address is adopted by the first network seen (C50_adopted_violated). With MySQL and no SQLAlchemy every row is overwritten (C50_mysql_violated). Simplification: scores are exact rationals; one writer at a time.",
 "C51": "An unknown sender's score is unchanged (C51_unknown); a known one moves by the factor towards the mean of its earlier scores (C51_towards_mean_partial) and never past it for factors in [0,1] (C51_between). A mean of exactly 0 is treated as no history (C51_zero_mean_violated).",
 "C52": "For all rulesets with meta rules nested to any depth, all positions and all well-formed settings: a configured rule that matches is counted once with the bonus of its type and nothing runs after it (C52_stops_partial); stopping has no other cause (C52_only_cause); unlisted and non-matching rules behave as without the plugin (C52_rule_unaffected, C52_unaffected). Missing because the code disagrees: of several settings of a rule the first wins and 'off' never switches off (C52_last_line_violated, C52_off_violated); a match with an empty text does not stop (C52_empty_text_violated). The missing description of a short-circuited rule is C39_key_error_violated.",
 "C53": "For all rulesets, flags, thresholds and scores: learned as spam exactly if the points, the header and body minimums, the learner's points and the score allow it (C53_spam_partial), but the points are of all rules of the ruleset, matched or not (C53_unmatched_violated: learned though the matched rules do not reach the threshold; C53_not_learned_violated: the converse). Ham is never learned (C53_never_ham); the decision about it is C53_ham_decision_partial. Simplification: exact rationals.",
 "C54": "Violated: SPF results are kept in a class-level dictionary and stay true for ever (C54_spf_violated); DKIM and the Received trail are computed for the first message only (C54_dkim_violated, C54_trail_violated), and the author domains of the first message stay even for new instances (C54_dkim_new_instance_violated). Proved: the first message of a process is judged right (C54_first_partial; C65_valid_partial and C67_first_header_partial for DKIM and SPF).",
 "C55": "Proved for all directory contents. os.listdir, expanduser and exists are parameters.",
 "C56": "Proved for messages that are not wrapped: the changes made are those of the lines for 'all' then those of the verdict, all additions before all removals; other headers untouched; only X-Spam- headers ever change. Violated by the code: removals run after additions whatever the order of the lines, report_safe 0 adds a report header to ham, report_safe 1 exchanges sender and recipient, malformed lines make loading fail.",
 "C57": "Violated for all definitions with a chain of more than eleven meta rules: kept when every rule comes after those it refers to (C57_bottom_up, any depth), dropped when the head of the chain comes first (C57_definition_order_violated). Independence of the order is proved when no usable rule is nested deeper than eleven levels.",
 "C58": "Proved for names not starting with a character of 'eval:' and non-empty arguments without commas. Witnesses: eval:all_ok() looks up _ok; a quoted comma splits the argument.",
 "C59": "Servers and port proved, also from the texts as documented (C59_written_partial); rotate, edns, lifetime, timeout and dns_test_interval are accepted but never reach the resolver, whatever they are (C59_options_violated).",
 "C60": "Proved for templates of plain text and tags, in or out of quotes, with underscores in the text and an unfinished tag at the end. Violated by the code for a percent sign and for two underscores in a row.",
 "C61": "The names, their order and 'none' are proved. The number shown is the rule's result (normally 1), not its score: violated.",
 "C62": "Holds for rule attributes when the preferences only define rules and set options (C62_rules_partial). Violated for options (built-in defaults are used, C62_options_violated) and for plugins: a site rule of a plugin's type makes every request of such a user fail (C62_plugin_rule_violated).",
 "C63": "Exactly one band for every score above the lowest bound; score 0 hits none (C63_zero_violated).",
 "C65": "Proved for the first message of a process. Violated by an exception during verification (C65_error_violated), by the author rule, which accepts a rejected signature (C65_author_violated), and by everything C54 says about later messages.",
 "C66": "Exactly what the code does: C66_exact_partial, C66_spf_partial. Violated: entries are searched anywhere in the address (C66_part_violated), the SPF lists at its beginning (C66_spf_violated); ? also stands for nothing (C66_question_violated); entries without ?, @ and . are skipped (C66_skipped_violated). Regular expressions made from entries are modelled as tokens with their matching relation.",
 "C67": "Proved for a plugin that has seen no other message and messages without Received headers. Violated: results not in lower case are lost (C67_case_violated); with Received headers the DNS result holds as well (C67_dns_violated).",
 "C68": "Exact conditions for being whitelisted; whitelisted messages are never called forged. Violated: with any entry in the list, every message from elsewhere is called forged (C68_forged_violated); entries with capital letters never match (C68_case_violated); * needs at least one character, and entries are searched anywhere in the address. ipaddress is a parameter.",
 "C69": "Base domain (C69_base) and the direction relay-in-domain implies true are proved. Violated: any host name ending in the letters of the domain is accepted (C69_tail_violated); a sender without @ raises (C69_no_at_violated).",
 "C70": "Exact condition: C70_exact_partial. Violated: URIs are compared by their last letters, not by host (C70_tail_violated, C70_path_violated), so exclusions have no effect (C70_excluded_violated).",
 "C71": "C71_text_partial, C71_parts_partial: exact result for every message that is parsed. C71_readable_partial: decodable subjects and readable parts are enough. Violated: an undecodable Subject makes the constructor raise (C71_subject_violated); an HTML part the tokenizer gives up on does so on Python 3.5 and newer, because the except clause names html.parser.HTMLParseError (C71_html_error_violated); character references are dropped and words with markup or references inside are split (C71_html_violated). The email package, codecs and the HTML tokenizer are parameters.",
 "C72": "URL_RE is modelled as a scanner. C72_sound: every URI is a link in a text part. C72_complete_partial: every delimited link is found. Missing: links glued to other text, protocols in upper case (C72_case_violated), letters with accents, which end a link (C72_accent_violated).",
 "C73": "C73_own: a message with its own identifier. C73_generated_partial: generated identifiers coincide exactly if date and used part of the body do, for a collision-free digest. Violated: no identifier for a message without an empty line (C73_missing_violated); a sender can choose the generated identifier of another message (C73_chosen_violated).",
 "C74": "C74_first_partial gives the exact result. Violated: the first header with a semicolon decides, and if what follows is no date, an exception is raised (C74_bad_date_violated). parsedate is a parameter.",
 "C75": "Only the case without any authentication wording and the protocol form are as claimed. The word 'authenticated' anywhere in the header, also in the HELO name, makes a relay authenticated and so trusted and internal.",
 "C76": "Order of relays and choice of the last public address before ' by ' proved. Violated: a HELO address behind the seen one is taken, a semicolon hides the rest, 172.16/12 is not private, senders with '=' are cut, undecodable headers and addresses ipaddress rejects make the message unreadable.",
 "C77": "Unambiguity needs fields without spaces. LASTEXTERNAL* describe the relay farthest away when more than one external relay is known.",
 "C78": "check_for_sender_no_reverse has the opposite sense; the domain test is a substring test. The other rules are exact.",
 "C79": "Proved for angle brackets: exact expansion of every pattern whose texts have no angle brackets, and of patterns with others if no pre/inter/post tag occurs. Violated: other brackets are never recognised, a listed rule without definition aborts loading, a rule listed twice is treated twice.",
 "C80": "The accepted charsets are characterised exactly, and the two reports with them. Violations: UCS-2 and UCS-4 are accepted nowhere (the table says USC); text without charset is accepted nowhere, so that with ok_locales set the header rule holds of every message with a plain ASCII subject; without ok_locales the part rule reports every charset that is not universal. Partial: decode_header is a parameter, upper-casing is ASCII.",
 "C81": "Counts and answers are characterised exactly, for one header, for Subject with its exempt sign, and for ALL. Violations: a rule with ALL takes Subject and From away from the message, so that the same rule about Subject then holds of no message; control characters are not counted. Partial: exact fractions for floating point, ASCII lower case.",
 "C82": "Sorted and similar recipients are characterised exactly, after any rules. Violations: a single recipient counts as sorted; with less than five recipients the first rule sees None and later ones zero, so answers depend on order; the ratio of similar pairs can be two. Partial: exact fractions for floating point.",
 "C83": "With dates that are understood, both rules are characterised exactly after any rules (smallest non-zero distance; middle one of the times). Violations: offsets from UTC are dropped; equal dates are passed over; negative upper bounds are never met, zero is no bound; whole years do not count; a missing or bad Date raises the first time and counts as no shift afterwards; the rule about months raises only after a rule about shifts. Partial: date parsing, the clock and counting of months are parameters; whole seconds.",
 "C84": "Counts, ratios and flags are given exactly for messages the plugin can cope with, and so are the answers of check_for_mime. It violates the property in many ways: the quoted-printable ratio is always zero, the test for bad ISO charsets never holds because nothing ever sets it, the test for the ratio of text to HTML holds without any HTML, one entity is counted per part, base64 line lengths are added over parts, RTF and related alternatives are flagged, UTF-8 is illegal in plain text, any plain message misses a boundary, base64 images count as text, one high byte counts as a majority, lines without colon are never long, cut headers are looked for in the number of values; a part of type image/html or an encoded multipart makes the check raise.",
 "C86": "Masks that are numbers work. Masks that are addresses, which is how the lists document them, pass every record of every list, because all of them begin with 127. Zones with a dash in their names are never found. One rule without list makes reading the configuration raise.",
 "C87": "Proved over HTMLParser's events as a parameter; urlparse and unquote are parameters.",
 "C88": "Proved for links that contain only text. Violated: the end of any element ends the text of the link; what follows <link> counts as its text; an address urlparse rejects, an attribute without value, or a <link> without address inside of a link raises, and the plugin hook is not protected, so the message cannot be checked.",
 "C89": "Proved for checks of raw, scheme, cleaned and domain. Violated: checks of text and of other keys never pass; flags after the expression are dropped; score, description, priority and tflags of the configuration have no effect.",
 "C90": "HTTP_REDIR is concrete (Model/Redirect): C90_hop tells exactly which redirection the code sees in an address without line feeds (the first address after the name of the host or, if there is none, the one beginning within it), C90_found when it sees one; termination follows from it. C90_http_partial: for readable addresses the rule holds exactly if an address leads, within one host, to one that redirects to another host. Violated: an address whose redirection urlparse rejects hides all after it; addresses not beginning with http:// or https:// in small letters (www., ftp, HTTP://), which also are in the list, are never seen, nor are escaped ones. urlparse remains a parameter.",
 "C91": "Proved if all links lead to numbers. Violated: if the first link leads to a named host the rule never holds.",
 "C92": "Proved where the wildcards make a valid expression, and for the first free mail address in the order of evaluation. Violated: addresses with capital letters in their domain are never free mail (without wildcards); an address with two @ is judged by the middle; the first free mail address that does not match the expression, or one without @, hides all others; an invalid wildcard breaks all of them, for the first message only.",
 "C93": "Proved for addresses that can be classified without exception, that is, if the wildcards make a valid expression (the expression that finds addresses only gives some with @).",
 "C94": "Both options are described exactly. Violated: with the option reply, a free mail address to reply to counts only if the sender has free mail; without sender of the envelope the rule never holds.",
 "C95": "The difference is described exactly, and lies where it should for equal and for disjoint alternatives. Violated between these: the code counts words of the HTML that are rarer in the plain text, so words only in the plain text do not count at all, and a plain text all of whose words are in the HTML can make 100 percent.",
 "C96": "Proved for every tree of parts. Numbers are exact where Python uses floating point.",
 "C97": "Proved for texts without successive blank lines that do not begin with one. Violated otherwise: pairs of line breaks are counted without overlap, so that never more than half of the lines count as blank.",
 "C98": "Proved for numbers. Violated for bounds in quotes, which are compared with a number as they are: the rule never holds.",
 "C99": "Proved: without plugins loaded from files and without the plugin for countries of relays saving changes nothing and restoring gives the same context; otherwise the restored context has the same classes. Violated: __getstate__ copies only the outer dictionary, so saving removes the plugins loaded from files, their eval rules and the databases of RelayCountryPlugin from the running context; restored plugins lose their settings and take back eval rules that others had redefined. The DNS interface is restored with the resolver of the system: nameservers and port configured before are lost (C99_nameservers_violated); which queries are sent is the same (C99_dns_partial)."
}